import Verif.Proofs.FftRnd
import Verif.Proofs.FftFill
import Verif.Props.Fft
import Mathlib.Analysis.SpecialFunctions.Log.Base
/-
  C57: the rounding errors of the FFT multiplication.
-/
namespace WD
open DW Finset

/-- C57. Every literal of the sine table agrees with sin(π/2^k) to 38 significant digits. -/
theorem sine_table_accurate (k : ℕ) (hk : 1 ≤ k) (hk2 : k ≤ 31) :
    |(sinLit (2 ^ k) : ℝ) - Real.sin (Real.pi / 2 ^ k)| ≤ 1 / 10 ^ 38 * Real.sin (Real.pi / 2 ^ k) := by
  have := sinLit_err hk hk2
  push_cast at this
  exact this

theorem sinLit_pow_ne {k : ℕ} (hk : 1 ≤ k) (hk2 : k ≤ 31) : sinLit (2 ^ k) ≠ 0 := by
  intro h
  have := sine_table_accurate k hk hk2
  have p : 0 < Real.sin (Real.pi / 2 ^ k) := by
    apply Real.sin_pos_of_pos_of_lt_pi (by positivity)
    apply div_lt_self Real.pi_pos
    exact one_lt_pow₀ (by norm_num) (by omega)
  rw [h, Rat.cast_zero, zero_sub, abs_neg, abs_of_pos p] at this
  linarith

/-- C57 (partial: the exponent range of the type and fused multiply-add are not modelled). The rounding error of the FFT
    multiplication: for p limbs (1 ≤ p ≤ 2^29) of radix B = h², a transform of n = nFft(p) points in a type with P significant bits
    (20 ≤ P ≤ 113; the sine table in a type at least as wide) and every limbs u, v, each of the values `mul_loop_fft` leaves after the
    inverse transform differs from the true coefficient of the product by at most
    4·p·(h-1)²·2^(-P)·(7n/2 + 210·(log2 n - 1)). -/
theorem fft_error_partial (L : Limb) (F FL : Flt) (h1 : 20 ≤ F.p) (h2 : F.p ≤ FL.p) (h3 : F.p ≤ 113) (p : ℕ) (hp5 : 1 ≤ p) (hp : p ≤ 2 ^ 29)
    (hn : 100 * nFft p ≤ 2 ^ F.p) (hL : L.half ≤ 2 ^ F.p) (u v : List ℕ) (hu : u.length = p) (hv : v.length = p)
    (huv : ValidLimbs L.mask u) (hvv : ValidLimbs L.mask v) (j : ℕ) (hj : j < nFft p) :
    |((fltOps F FL).xaj L (Nat.log2 (nFft p / 16)) p u v j : ℝ) - conv (splitHalf L u) (splitHalf L v) j| ≤
      4 * p * (L.half - 1) ^ 2 * (7 * (nFft p / 2) + 210 * (Real.logb 2 (nFft p) - 1)) / 2 ^ F.p := by
  obtain ⟨e, g1, g2⟩ := nFft_spec hp
  generalize hm : Nat.log2 (nFft p / 16) = m at *
  have hm27 : m ≤ 27 := by
    have k29 := g2 29 (by norm_num) hp
    rw [e] at k29
    by_contra hc
    have : 2 ^ 28 ≤ 2 ^ m := Nat.pow_le_pow_right (by norm_num) (by omega)
    omega
  have hu0 : (F.u : ℝ) * 2 ^ F.p = 1 := F.u_eq
  have hu1 : (0:ℝ) < F.u := by exact_mod_cast F.u_pos
  have hue : (F.u : ℝ) = 1 / 2 ^ F.p := by rw [eq_div_iff (by positivity)]; exact hu0
  have R := fltOps_rnd h1 h2 h3
  have hun : (F.u : ℝ) * (16 * 2 ^ m : ℕ) ≤ 1 / 100 := by
    rw [← e, hue, div_mul_eq_mul_div, one_mul, div_le_div_iff₀ (by positivity) (by norm_num)]
    have : ((100 * nFft p : ℕ) : ℝ) ≤ (2 ^ F.p : ℕ) := by exact_mod_cast hn
    push_cast at this; linarith
  have key := R.xaj_err L (R.twB hm27 hun) (by omega) (by omega) (by
      show ((F.rnd ((8 * 2 ^ m : ℕ) : ℚ) : ℚ) : ℝ) = _
      rw [show 8 * 2 ^ m = 2 ^ (m + 3) by ring, F.rnd_eq (RepF.pow2 _)]; push_cast; rfl) (by
      show F.rnd ((0 : ℕ) : ℚ) = 0
      rw [Nat.cast_zero, F.rnd_zero]) (by
      intro n hn
      show ((F.rnd ((n : ℕ) : ℚ) : ℚ) : ℝ) = _
      rw [F.rnd_eq (RepF.nat (by omega))]; push_cast; rfl) u v hu hv huv hvv (j := j) (by omega)
  refine le_trans key (le_trans (mul_le_mul_of_nonneg_left (R.fin_le hm27 hun) (by positivity)) (le_of_eq ?_))
  rw [hue, e]
  have hlog : Real.logb 2 ((16 * 2 ^ m : ℕ) : ℝ) = m + 4 := by
    rw [show 16 * 2 ^ m = 2 ^ (m + 4) by ring]
    push_cast
    rw [← Real.rpow_natCast, Real.logb_rpow (by norm_num) (by norm_num)]
    push_cast; rfl
  rw [hlog]
  push_cast
  ring

/-- C57 (partial: sufficient sizes only; exponent range and fused multiply-add not modelled). If p ≤ 2^k limbs and
    16·p·(h-1)²·(14·2^k + 210(k+1)) ≤ 2^P, the FFT multiplication is accurate: for all limbs u, v every value after the inverse
    transform is within 1/4 of the true coefficient, so that the rounding to integers recovers it exactly. -/
theorem fft_accurate_partial (L : Limb) (F FL : Flt) (h1 : 20 ≤ F.p) (h2 : F.p ≤ FL.p) (h3 : F.p ≤ 113) (p k : ℕ) (hp5 : 1 ≤ p)
    (hk3 : 3 ≤ k) (hk : k ≤ 29) (hpk : p ≤ 2 ^ k) (hP : 16 * p * (L.half - 1) ^ 2 * (14 * 2 ^ k + 210 * (k + 1)) ≤ 2 ^ F.p)
    (u v : List ℕ) (hu : u.length = p) (hv : v.length = p) (huv : ValidLimbs L.mask u) (hvv : ValidLimbs L.mask v) (j : ℕ) (hj : j < nFft p) :
    |(fltOps F FL).xaj L (Nat.log2 (nFft p / 16)) p u v j - conv (splitHalf L u) (splitHalf L v) j| ≤ 1 / 4 := by
  have hh := L.half_ge
  have hp29 : p ≤ 2 ^ 29 := le_trans hpk (Nat.pow_le_pow_right (by norm_num) hk)
  obtain ⟨e, g1, g2⟩ := nFft_spec hp29
  have gk := g2 k hk3 hpk
  have hsq : 9 * (L.half - 1) ≤ (L.half - 1) ^ 2 := by
    rw [pow_two]; exact Nat.mul_le_mul_right _ (by omega)
  have hbig : 16 * 1 * (L.half - 1) ^ 2 * (14 * 2 ^ k + 210 * (k + 1)) ≤ 2 ^ F.p :=
    le_trans (Nat.mul_le_mul_right _ (Nat.mul_le_mul_right _ (Nat.mul_le_mul_left _ hp5))) hP
  have hn : 100 * nFft p ≤ 2 ^ F.p := by
    have : 16 * 1 * (81) * (14 * 2 ^ k + 210 * (k + 1)) ≤ 16 * 1 * (L.half - 1) ^ 2 * (14 * 2 ^ k + 210 * (k + 1)) :=
      Nat.mul_le_mul_right _ (Nat.mul_le_mul_left _ (by omega))
    omega
  have hL : L.half ≤ 2 ^ F.p := by
    have : 16 * 1 * (L.half - 1) ^ 2 * 1 ≤ 16 * 1 * (L.half - 1) ^ 2 * (14 * 2 ^ k + 210 * (k + 1)) := Nat.mul_le_mul_left _ (by omega)
    omega
  have key := fft_error_partial L F FL h1 h2 h3 p hp5 hp29 hn hL u v hu hv huv hvv j hj
  have hb : 4 * p * (L.half - 1) ^ 2 * (7 * (nFft p / 2) + 210 * (Real.logb 2 (nFft p) - 1)) / 2 ^ F.p ≤ (1 / 4 : ℝ) := by
    rw [div_le_iff₀ (by positivity)]
    have nk : (nFft p : ℝ) ≤ 4 * 2 ^ k := by exact_mod_cast gk
    have n0 : (0:ℝ) < nFft p := by exact_mod_cast (by omega : 0 < nFft p)
    have a2 : Real.logb 2 (nFft p) ≤ k + 2 := by
      rw [Real.logb_le_iff_le_rpow (by norm_num) n0]
      refine le_trans nk (le_of_eq ?_)
      rw [show ((k:ℝ) + 2) = ((k + 2 : ℕ) : ℝ) by push_cast; ring, Real.rpow_natCast]
      ring
    have a3 : 7 * ((nFft p : ℝ) / 2) + 210 * (Real.logb 2 (nFft p) - 1) ≤ 14 * 2 ^ k + 210 * (k + 1) := by linarith
    have hP' : ((16 * p * (L.half - 1) ^ 2 * (14 * 2 ^ k + 210 * (k + 1)) : ℕ) : ℝ) ≤ (2 ^ F.p : ℕ) := by exact_mod_cast hP
    rw [Nat.cast_mul, Nat.cast_mul, Nat.cast_pow, Nat.cast_sub (by omega)] at hP'
    push_cast at hP'
    have h0 : (0:ℝ) ≤ ((L.half : ℝ) - 1) ^ 2 := sq_nonneg _
    have a5 := mul_le_mul_of_nonneg_left a3 (by positivity : 0 ≤ 4 * (p : ℝ) * ((L.half : ℝ) - 1) ^ 2)
    linarith
  have := le_trans key hb
  have : (((|(fltOps F FL).xaj L (Nat.log2 (nFft p / 16)) p u v j - conv (splitHalf L u) (splitHalf L v) j| : ℚ)) : ℝ) ≤ ((1 / 4 : ℚ) : ℝ) := by
    push_cast
    exact this
  exact_mod_cast this

/-- C57 (partial: see `fft_accurate_partial`). Limb and floating-point types for which the FFT multiplication is accurate for every
    pair of operands with at most p limbs: 8-bit limbs with `double` up to 524288 limbs, 16-bit limbs with `double` up to 62000 limbs, 32-bit limbs
    with the 64-bit `long double` up to 24900 limbs, and any limbs with a 113-bit type up to 2^29 limbs. -/
theorem fft_accurate_sizes_partial (L : Limb) (F FL : Flt) (h2 : F.p ≤ FL.p) (p : ℕ) (hp5 : 1 ≤ p)
    (h : (L = .u8 ∧ F.p = 53 ∧ p ≤ 524288) ∨ (L = .u16 ∧ F.p = 53 ∧ p ≤ 62000) ∨ (L = .u32 ∧ F.p = 64 ∧ p ≤ 24900) ∨ (F.p = 113 ∧ p ≤ 2 ^ 29))
    (u v : List ℕ) (hu : u.length = p) (hv : v.length = p) (huv : ValidLimbs L.mask u) (hvv : ValidLimbs L.mask v) (j : ℕ) (hj : j < nFft p) :
    |(fltOps F FL).xaj L (Nat.log2 (nFft p / 16)) p u v j - conv (splitHalf L u) (splitHalf L v) j| ≤ 1 / 4 := by
  rcases h with ⟨rfl, hF, hp⟩ | ⟨rfl, hF, hp⟩ | ⟨rfl, hF, hp⟩ | ⟨hF, hp⟩
  · exact fft_accurate_partial _ F FL (by omega) h2 (by omega) p 19 hp5 (by norm_num) (by norm_num) (by omega)
      (le_trans (Nat.mul_le_mul_right _ (Nat.mul_le_mul_right _ (Nat.mul_le_mul_left 16 hp))) (by rw [hF]; decide)) u v hu hv huv hvv j hj
  · exact fft_accurate_partial _ F FL (by omega) h2 (by omega) p 16 hp5 (by norm_num) (by norm_num) (by omega)
      (le_trans (Nat.mul_le_mul_right _ (Nat.mul_le_mul_right _ (Nat.mul_le_mul_left 16 hp))) (by rw [hF]; decide)) u v hu hv huv hvv j hj
  · exact fft_accurate_partial _ F FL (by omega) h2 (by omega) p 15 hp5 (by norm_num) (by norm_num) (by omega)
      (le_trans (Nat.mul_le_mul_right _ (Nat.mul_le_mul_right _ (Nat.mul_le_mul_left 16 hp))) (by rw [hF]; decide)) u v hu hv huv hvv j hj
  · exact fft_accurate_partial _ F FL (by omega) h2 (by omega) p 29 hp5 (by norm_num) (by norm_num) (by omega)
      (le_trans (Nat.mul_le_mul_right _ (Nat.mul_le_mul_right _ (Nat.mul_le_mul_left 16 hp))) (by rw [hF]; cases L <;> decide)) u v hu hv huv hvv j hj

/-- The configuration whose `c.fft` is the modelled `mul_loop_fft` with its transforms in F. -/
def fltFft (L : Limb) (d E : ℕ) (F FL : Flt) : Cfg :=
  { L := L, digits10 := d, maxExp := E, fft := fun a b => mulLoopFft L F FL a b a.length }

theorem fltFft_accurate {L : Limb} {d E : ℕ} {F FL : Flt} {x y : DW} (hx : WF (fltFft L d E F FL) x)
    (h : ∀ j, j < nFft (fltFft L d E F FL).N → |(fltOps F FL).xaj L (Nat.log2 (nFft (fltFft L d E F FL).N / 16)) (fltFft L d E F FL).N x.data y.data j -
      conv (splitHalf L x.data) (splitHalf L y.data) j| ≤ 1 / 4) (hN : (fltFft L d E F FL).N ≤ 2 ^ 29) : FftAccurate (fltFft L d E F FL) F x y := by
  obtain ⟨-, g, -⟩ := nFft_spec hN
  refine ⟨(fltOps F FL).xaj L (Nat.log2 (nFft (fltFft L d E F FL).N / 16)) (fltFft L d E F FL).N x.data y.data, fun j hj => h j (by omega), ?_⟩
  show mulLoopFft L F FL x.data y.data x.data.length = _
  rw [hx.len]; rfl

/-- C57, C25, C04 (partial: exponent range and fused multiply-add not modelled; digits lost as in `fft_product_loses_digits`). A product of
    1793 or more limbs, with the whole FFT multiplication modelled, for the types and sizes of `fft_accurate_sizes_partial`: the result
    has full precision, the right sign and |x*y| ≤ |x·y| ≤ |x*y| + 2N(h-1)·10^(e_x+e_y-ed(N-2)). -/
theorem mul_fft_float_partial (L : Limb) (d E : ℕ) (F FL : Flt) (x y : DW) :
    let c := fltFft L d E F FL
    Full c x → Full c y → x.val c ≠ 0 → y.val c ≠ 0 → F.p ≤ FL.p → 1793 ≤ c.N →
    ((L = .u8 ∧ F.p = 53 ∧ c.N ≤ 524288) ∨ (L = .u16 ∧ F.p = 53 ∧ c.N ≤ 62000) ∨ (L = .u32 ∧ F.p = 64 ∧ c.N ≤ 24900) ∨ (F.p = 113 ∧ c.N ≤ 2 ^ 29)) →
    isOneSN c x = false → isOneSN c y = false → -(E : ℤ) < x.exp + y.exp → x.exp + y.exp < E →
    Full c (mulAssign c x y) ∧ ((mulAssign c x y).isNeg = true ↔ x.val c * y.val c < 0) ∧
    |(mulAssign c x y).val c| ≤ |x.val c * y.val c| ∧
    |x.val c * y.val c| ≤ |(mulAssign c x y).val c| + 2 * c.N * (10 ^ (c.ed / 2) - 1) * 10 ^ (x.exp + y.exp - c.ed * (c.N - 2)) := by
  intro c hx hy hx0 hy0 h2 hN h o1 o2 hlo hhi
  have hN29 : c.N ≤ 2 ^ 29 := by rcases h with ⟨-, -, h⟩ | ⟨-, -, h⟩ | ⟨-, -, h⟩ | ⟨-, h⟩ <;> omega
  have hacc : FftAccurate c F x y := fltFft_accurate hx.toWF (fun j hj =>
    fft_accurate_sizes_partial L F FL h2 c.N (by omega) h x.data y.data hx.len hy.len hx.valid hy.valid j hj) hN29
  have hB : 8 * c.N * 10 ^ c.ed ≤ 2 ^ 64 ∧ 8 * c.N * 10 ^ c.ed ≤ 2 ^ F.p := by
    have hc : c.ed = L.ed := rfl
    rw [hc]
    rcases h with ⟨rfl, hF, h⟩ | ⟨rfl, hF, h⟩ | ⟨rfl, hF, h⟩ | ⟨hF, h⟩
    · rw [hF]; show _ * 10 ^ 2 ≤ _ ∧ _ * 10 ^ 2 ≤ _; omega
    · rw [hF]; show _ * 10 ^ 4 ≤ _ ∧ _ * 10 ^ 4 ≤ _; omega
    · rw [hF]; show _ * 10 ^ 8 ≤ _ ∧ _ * 10 ^ 8 ≤ _; omega
    · rw [hF]
      have : 10 ^ L.ed ≤ 10 ^ 8 := Nat.pow_le_pow_right (by norm_num) (by cases L <;> decide)
      have := Nat.mul_le_mul_left (8 * c.N) this
      omega
  exact mul_fft_error_partial c F x y hx hy hx0 hy0 hN hB.2 hB.1 hacc o1 o2 hlo hhi

theorem conv_nines {L : Limb} {p : ℕ} (hp : 1 ≤ p) :
    conv (splitHalf L (List.replicate p (L.mask - 1))) (splitHalf L (List.replicate p (L.mask - 1))) 1 = 2 * (L.half - 1) ^ 2 := by
  have hh := L.half_ge
  have hsq := L.half_sq
  obtain ⟨q, rfl⟩ : ∃ q, p = q + 1 := ⟨p - 1, by omega⟩
  have hm : L.mask - 1 = L.half * (L.half - 1) + (L.half - 1) := by
    rw [← hsq]
    obtain ⟨t, ht⟩ : ∃ t, L.half = t + 1 := ⟨L.half - 1, by omega⟩
    rw [ht, Nat.add_sub_cancel]
    have : (t + 1) ^ 2 = (t + 1) * t + t + 1 := by ring
    omega
  have e : splitHalf L (List.replicate (q + 1) (L.mask - 1)) = (L.half - 1) :: (L.half - 1) :: splitHalf L (List.replicate q (L.mask - 1)) := by
    show (L.mask - 1) / L.half :: (L.mask - 1) % L.half :: splitHalf L (List.replicate q (L.mask - 1)) = _
    have e1 : (L.mask - 1) / L.half = L.half - 1 := by
      rw [hm, Nat.mul_add_div (by omega), Nat.div_eq_of_lt (by omega)]; rfl
    have e2 : (L.mask - 1) % L.half = L.half - 1 := by
      rw [hm, Nat.mul_add_mod, Nat.mod_eq_of_lt (by omega)]
    rw [e1, e2]
  rw [e]
  unfold conv
  rw [sum_range_succ, sum_range_one]
  show (L.half - 1) * (L.half - 1) + (L.half - 1) * (L.half - 1) = _
  ring

/-- C57, negative part: with the transforms in single precision and 32-bit limbs the FFT multiplication cannot be accurate. For any number of limbs,
    all limbs 99999999: the coefficient next to the leading one is 199960002, and the value computed for it is off by more than 1. -/
theorem fft_single_precision_inaccurate (FL : Flt) (F : Flt) (hF : F.p = 24) (p m : ℕ) (hp : 1 ≤ p) :
    let u := List.replicate p 99999999
    ValidLimbs (Limb.mask .u32) u ∧ conv (splitHalf .u32 u) (splitHalf .u32 u) 1 = 199960002 ∧
    1 < |(fltOps F FL).xaj .u32 m p u u 1 - conv (splitHalf .u32 u) (splitHalf .u32 u) 1| := by
  intro u
  have hc : conv (splitHalf .u32 u) (splitHalf .u32 u) 1 = 199960002 := (conv_nines (L := .u32) hp).trans (by decide)
  refine ⟨fun d hd => ?_, hc, ?_⟩
  · rw [List.eq_of_mem_replicate hd]; decide
  · rw [hc]
    have hr : RepF 24 ((fltOps F FL).xaj .u32 m p u u 1) := by
      rw [← hF]; exact F.rep _
    generalize (fltOps F FL).xaj .u32 m p u u 1 = q at *
    obtain ⟨M, k, hM, rfl⟩ := hr
    rcases le_or_gt k 1 with hk | hk
    · have hM' : (M : ℚ) ≤ 2 ^ 24 := by exact_mod_cast le_trans (le_abs_self M) hM
      have h2 : (2 : ℚ) ^ k ≤ 2 := by
        calc (2 : ℚ) ^ k ≤ 2 ^ (1 : ℤ) := zpow_le_zpow_right₀ (by norm_num) hk
          _ = 2 := by norm_num
      have h3 : (0:ℚ) < 2 ^ k := by positivity
      have : (M : ℚ) * 2 ^ k ≤ 2 ^ 24 * 2 := le_trans (mul_le_mul_of_nonneg_right hM' h3.le) (mul_le_mul_of_nonneg_left h2 (by norm_num))
      rw [abs_sub_comm]
      refine lt_of_lt_of_le ?_ (le_abs_self _)
      push_cast
      linarith
    · obtain ⟨t, rfl⟩ : ∃ t : ℕ, k = t + 2 := ⟨(k - 2).toNat, by omega⟩
      have e : (M : ℚ) * (2 : ℚ) ^ ((t : ℤ) + 2) - ((199960002 : ℕ) : ℚ) = ((M * 2 ^ t * 4 - 199960002 : ℤ) : ℚ) := by
        rw [zpow_add₀ (by norm_num), zpow_natCast]; push_cast; ring
      rw [e]
      have : 1 < |M * 2 ^ t * 4 - 199960002| := by
        generalize M * 2 ^ t = w
        rcases abs_cases (w * 4 - 199960002) with h | h <;> omega
      exact_mod_cast this

/-- The 64-bit `long double` of x86. -/
def exLongDouble : Flt := ⟨64, 18, 21, roundBits 64, roundBits_rep 64 (by norm_num), roundBits_nearest 64 (by norm_num)⟩

/-- 32-bit limbs, 20000 digits, transforms in `long double`. -/
example : let c := fltFft .u32 20000 (2 ^ 59) exLongDouble exLongDouble
    Full c (almostTwo c) ∧ (mulAssign c (almostTwo c) (almostTwo c)).isNeg = false ∧
    |(almostTwo c).val c * (almostTwo c).val c| ≤
      |(mulAssign c (almostTwo c) (almostTwo c)).val c| + 2 * 2503 * 9999 * (10 : ℚ) ^ (-20008 : ℤ) := by
  intro c
  have hx := almostTwo_full c
  have hN : c.N = 2503 := by decide
  have hx0 : (almostTwo c).val c ≠ 0 := by
    have := hx.toWF.abs_pos (c := c) rfl
    intro h; rw [h] at this; simp at this
  have h1 : isOneSN c (almostTwo c) = false := by
    obtain ⟨k, hk⟩ : ∃ k, c.N - 1 = k + 1 := ⟨c.N - 2, by omega⟩
    have hB := c.one_lt_B
    simp [isOneSN, almostTwo, d0, hk, List.replicate_succ]
    omega
  obtain ⟨-, q2, -, q4⟩ := mul_fft_float_partial .u32 20000 (2 ^ 59) exLongDouble exLongDouble (almostTwo c) (almostTwo c) hx hx hx0 hx0
    (le_refl _) (by show 1793 ≤ c.N; omega) (Or.inr (Or.inr (Or.inl ⟨rfl, rfl, by show c.N ≤ 24900; omega⟩))) h1 h1
    (by show -((2 ^ 59 : ℕ) : ℤ) < 0 + 0; norm_num) (by show (0 : ℤ) + 0 < ((2 ^ 59 : ℕ) : ℤ); norm_num)
  refine ⟨hx, ?_, ?_⟩
  · have h := mul_self_nonneg ((almostTwo c).val c)
    cases hb : (mulAssign c (almostTwo c) (almostTwo c)).isNeg with
    | false => rfl
    | true => exact absurd (q2.mp hb) (not_lt.mpr h)
  · change |(almostTwo c).val c * (almostTwo c).val c| ≤ |(mulAssign c (almostTwo c) (almostTwo c)).val c| +
      2 * (c.N : ℚ) * (10 ^ (c.ed / 2) - 1) * 10 ^ ((0:ℤ) + 0 - c.ed * (c.N - 2)) at q4
    rw [hN, show c.ed = 8 from rfl] at q4
    have e : ((0:ℤ) + 0 - ((8:ℕ):ℤ) * (((2503:ℕ):ℤ) - 2)) = -20008 := by norm_num
    rw [e] at q4
    generalize (10 : ℚ) ^ (-20008 : ℤ) = z at *
    norm_num at q4 ⊢
    exact q4

/-- The size condition for the default type `double` with 32-bit limbs, at 100 limbs. -/
example (FL : Flt) (h : 53 ≤ FL.p) (u v : List ℕ) (hu : u.length = 100) (hv : v.length = 100) (huv : ValidLimbs (Limb.mask .u32) u)
    (hvv : ValidLimbs (Limb.mask .u32) v) :
    |(fltOps exDouble FL).xaj .u32 (Nat.log2 (nFft 100 / 16)) 100 u v 5 - conv (splitHalf .u32 u) (splitHalf .u32 v) 5| ≤ 1 / 4 :=
  fft_accurate_partial .u32 exDouble FL (by decide) h (by decide) 100 7 (by norm_num) (by norm_num) (by norm_num) (by norm_num)
    (by decide) u v hu hv huv hvv 5 (by decide)

/-- Single precision, 1793 limbs. -/
example : 1 < |(fltOps exFloat exLongDouble).xaj .u32 9 1793 (List.replicate 1793 99999999) (List.replicate 1793 99999999) 1 -
    conv (splitHalf .u32 (List.replicate 1793 99999999)) (splitHalf .u32 (List.replicate 1793 99999999)) 1| :=
  (fft_single_precision_inaccurate exLongDouble exFloat rfl 1793 9 (by norm_num)).2.2

/-- sin(π/8) to 38 digits: 0.38268343236508977172845998403039886676. -/
example : |(0.38268343236508977172845998403039886676134 : ℝ) - Real.sin (Real.pi / 8)| ≤ 1 / 10 ^ 38 := by
  have h := sine_table_accurate 3 (by norm_num) (by norm_num)
  have e : sinLit (2 ^ 3) = 0.38268343236508977172845998403039886676134 := by
    rw [sinLit_pow (by norm_num)]; norm_num [sinTable]
  rw [e] at h
  have := Real.sin_le_one (Real.pi / 2 ^ 3)
  norm_num at h this ⊢
  linarith

end WD
