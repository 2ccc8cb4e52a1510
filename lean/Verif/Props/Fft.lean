import Verif.Proofs.Fft2
import Verif.Props.Mul
/-
  C25: the recombination of the FFT multiplication.
-/
namespace WD
open DW Finset

/-- C25 (partial: the lower half of the convolution is not used by the code, so the limbs are not those of the exact
    product; see `fft_product_loses_digits`). If the values after the inverse transform are within 1/4 of the true
    convolution of the half-limbs, `mul_loop_fft` stores p valid limbs whose value R satisfies
    R ≤ U·V / B^p ≤ R + 2p(h-1), where h is the radix of the half-limbs and B = h². -/
theorem fft_release_partial (L : Limb) (F : Flt) (x : ℕ → ℚ) (p : ℕ) (u v : List ℕ) (hp : 0 < p) (hu : u.length = p) (hv : v.length = p)
    (huv : ValidLimbs L.mask u) (hvv : ValidLimbs L.mask v)
    (hx : ∀ j, j + 2 ≤ 2 * p → |x j - conv (splitHalf L u) (splitHalf L v) j| ≤ 1 / 4)
    (hF : 8 * p * L.mask ≤ 2 ^ F.p) (h64 : 8 * p * L.mask ≤ 2 ^ 64) :
    let r := fftRelease L F x p
    r.length = p ∧ ValidLimbs L.mask r ∧
    limbsVal L.mask r * L.mask ^ p ≤ limbsVal L.mask u * limbsVal L.mask v ∧
    limbsVal L.mask u * limbsVal L.mask v ≤ (limbsVal L.mask r + 2 * p * (L.half - 1)) * L.mask ^ p := by
  intro r
  obtain ⟨l1, l2, l3⟩ := fftRelease_eq L F x p u v hp hu hv huv hvv hx hF h64
  have hh := L.half_ge
  have hal := splitHalf_length L u
  have hbl := splitHalf_length L v
  rw [hu] at hal; rw [hv] at hbl
  obtain ⟨c1, c2⟩ := convSum_bounds (h := L.half) (by omega) (n := 2 * p) (by omega) hal hbl (splitHalf_valid L huv) (splitHalf_valid L hvv)
  rw [limbsVal_half, limbsVal_half, pow_mul, L.half_sq, ← l3] at c1 c2
  exact ⟨l1, l2, c1, c2⟩

/-- The floating-point part of `mul_loop_fft` is accurate on the limbs of x and y: every value it leaves after the inverse
    transform is within 1/4 of the true convolution of the half-limbs. -/
def FftAccurate (c : Cfg) (F : Flt) (x y : DW) : Prop :=
  ∃ ξ : ℕ → ℚ, (∀ j, j + 2 ≤ 2 * c.N → |ξ j - conv (splitHalf c.L x.data) (splitHalf c.L y.data) j| ≤ 1 / 4) ∧
    c.fft x.data y.data = fftRelease c.L F ξ c.N

/-- Exact value of the FFT product: the truncated convolution. -/
theorem mul_fft_value {c : Cfg} {F : Flt} {x y : DW} (hx : Full c x) (hy : Full c y) (hxz : x.isZero = false) (hyz : y.isZero = false)
    (hN : 1793 ≤ c.N) (hF : 8 * c.N * c.B ≤ 2 ^ F.p) (h64 : 8 * c.N * c.B ≤ 2 ^ 64) (hacc : FftAccurate c F x y)
    (h1 : isOneSN c x = false) (h2 : isOneSN c y = false)
    (hlo : -(c.maxExp : ℤ) < x.exp + y.exp) (hhi : x.exp + y.exp < c.maxExp) :
    Full c (mulAssign c x y) ∧ (mulAssign c x y).isZero = false ∧ (mulAssign c x y).neg = (x.neg != y.neg) ∧
    (x.exp + y.exp ≤ (mulAssign c x y).exp ∧ (mulAssign c x y).exp ≤ x.exp + y.exp + c.ed) ∧
    |(mulAssign c x y).val c| = (convSum c.L.half (conv (splitHalf c.L x.data) (splitHalf c.L y.data)) (2 * c.N - 1) : ℚ) *
      10 ^ (x.exp + y.exp - c.ed * (c.N - 2)) := by
  obtain ⟨ξ, hξ, hfft⟩ := hacc
  obtain ⟨l1, l2, l3⟩ := fftRelease_eq c.L F ξ c.N x.data y.data (by omega) hx.len hy.len hx.valid hy.valid hξ hF h64
  have hed : (0:ℤ) < c.ed := by exact_mod_cast c.ed_pos
  have hh := c.L.half_ge
  rcases mulAssign_cases (c := c) hxz hyz with ⟨a, e⟩ | ⟨a, b, e⟩ | ⟨a, b, d, e⟩ | ⟨a, b, h0, d, e⟩ | ⟨a, b, d, f, e⟩
  · rw [h1] at a; simp at a
  · rw [h2] at b; simp at b
  · omega
  · omega
  · have hp : min x.prec y.prec = c.N := by rw [hx.full, hy.full, Nat.min_self]
    rw [hp] at e
    have hge : c.B ^ (c.N - 2) ≤ limbsVal c.B (fftRelease c.L F ξ c.N) := by
      have hV := hy.toWF.mant_ge hyz
      have hg := convSum_ge (h := c.L.half) (n := 2 * c.N) (a := splitHalf c.L x.data) (b := splitHalf c.L y.data) (by omega) (by omega)
        (by rw [splitHalf_length, hy.len]) (splitHalf_valid c.L hy.valid) (by
          have hd0 : x.d0 ≠ 0 := by simpa [isZero] using hxz
          unfold d0 at hd0
          cases hd : x.data with
          | nil => rw [hd] at hd0; simp at hd0
          | cons z zs =>
            rw [hd] at hd0; simp only [List.headD_cons] at hd0
            show 1 ≤ z / c.L.half + z % c.L.half
            have := Nat.div_add_mod z c.L.half
            by_contra hc
            have e := Nat.lt_one_iff.mp (not_le.mp hc)
            rw [Nat.add_eq_zero_iff] at e
            rw [e.1, e.2] at this; omega)
      rw [← l3, limbsVal_half, c.L.half_sq] at hg
      refine le_trans ?_ hg
      show c.B ^ (c.N - 2) ≤ limbsVal c.B y.data / c.B
      rw [Nat.le_div_iff_mul_le c.B_pos, ← pow_succ, show c.N - 2 + 1 = c.N - 1 by omega]
      exact hV
    obtain ⟨q1, q2, q3, q4, q5, q6⟩ := mulDispatch_fft (u := { x with neg := false, exp := x.exp + y.exp })
      (v := y) (c := c) ⟨hx.len, hx.valid, dvd_add hx.dvd hy.dvd, hx.prec2, hx.precN, hx.lead⟩ hy.toWF hN hfft l1 l2 hge
    rw [e]
    generalize mulDispatch c c.N { x with neg := false, exp := x.exp + y.exp } y = r at *
    refine ⟨⟨setNeg_wf q1 _, ?_⟩, q2, rfl, ?_, ?_⟩
    · show r.prec = c.N; rw [q4]; exact hx.full
    · show x.exp + y.exp ≤ r.exp ∧ r.exp ≤ _; rcases q5 with h | h <;> rw [h] <;> constructor <;> simp <;> omega
    · rw [setNeg_abs c r (x.neg != y.neg), q6]
      rw [show limbsVal c.B (fftRelease c.L F ξ c.N) = _ from l3]
      congr 2
      unfold lexp
      show x.exp + y.exp - _ + _ = _
      ring

/-- C25, C04 (partial: see `fft_product_loses_digits` for the digits lost): a product computed with the FFT (1793 or more
    limbs). If the transforms are accurate to 1/4, then the product is at full precision, its sign is right and
    |x*y| ≤ |x·y| ≤ |x*y| + 2N(h-1)·10^(e_x+e_y-ed(N-2)), h = 10^(ed/2). -/
theorem mul_fft_error_partial (c : Cfg) (F : Flt) (x y : DW) (hx : Full c x) (hy : Full c y) (hx0 : x.val c ≠ 0) (hy0 : y.val c ≠ 0)
    (hN : 1793 ≤ c.N) (hF : 8 * c.N * 10 ^ c.ed ≤ 2 ^ F.p) (h64 : 8 * c.N * 10 ^ c.ed ≤ 2 ^ 64) (hacc : FftAccurate c F x y)
    (h1 : isOneSN c x = false) (h2 : isOneSN c y = false)
    (hlo : -(c.maxExp : ℤ) < x.exp + y.exp) (hhi : x.exp + y.exp < c.maxExp) :
    Full c (mulAssign c x y) ∧ ((mulAssign c x y).isNeg = true ↔ x.val c * y.val c < 0) ∧
    |(mulAssign c x y).val c| ≤ |x.val c * y.val c| ∧
    |x.val c * y.val c| ≤ |(mulAssign c x y).val c| + 2 * c.N * (10 ^ (c.ed / 2) - 1) * 10 ^ (x.exp + y.exp - c.ed * (c.N - 2)) := by
  have hxz := isZero_false_of_val hx.toWF hx0
  have hyz := isZero_false_of_val hy.toWF hy0
  rw [← c.B_eq] at hF h64
  obtain ⟨q1, q2, q3, q4, q5⟩ := mul_fft_value hx hy hxz hyz hN hF h64 hacc h1 h2 hlo hhi
  have hh := c.L.half_ge
  obtain ⟨c1, c2⟩ := convSum_bounds (h := c.L.half) (by omega) (n := 2 * c.N) (by omega) (by rw [splitHalf_length, hx.len])
    (by rw [splitHalf_length, hy.len]) (splitHalf_valid c.L hx.valid) (splitHalf_valid c.L hy.valid)
  rw [limbsVal_half, limbsVal_half, pow_mul, c.L.half_sq] at c1 c2
  have hpow : (c.B : ℚ) ^ c.N * 10 ^ (x.lexp c + y.lexp c) = 10 ^ (x.exp + y.exp - c.ed * (c.N - 2)) := by
    rw [mul_comm, c.p10_mul_B]; congr 1; unfold lexp; ring
  have hprod : |x.val c * y.val c| = (limbsVal c.B x.data * limbsVal c.B y.data : ℕ) * 10 ^ (x.lexp c + y.lexp c) := by
    rw [abs_mul, abs_val, abs_val, zpow_add₀ (by norm_num)]; unfold mant; push_cast; ring
  refine ⟨q1, ?_, ?_, ?_⟩
  · clear h64 hF c1 c2 hpow hprod q5 q4 hacc
    unfold isNeg; rw [q3, val_sgn c x, val_sgn c y]
    have h1 := hx.toWF.abs_pos hxz
    have h2 := hy.toWF.abs_pos hyz
    have h3 : 0 < |x.val c| * |y.val c| := mul_pos h1 h2
    cases x.neg <;> cases y.neg <;> simp <;> nlinarith
  · rw [q5, hprod, ← hpow, ← mul_assoc]
    refine mul_le_mul_of_nonneg_right ?_ (p10_pos _).le
    exact_mod_cast c1
  · rw [q5, hprod, ← hpow, ← add_mul, ← mul_assoc]
    refine mul_le_mul_of_nonneg_right ?_ (p10_pos _).le
    have : ((c.L.half - 1 : ℕ) : ℚ) = 10 ^ (c.ed / 2) - 1 := by
      rw [Nat.cast_sub (by omega)]; unfold Limb.half; push_cast; rfl
    rw [← this]
    exact_mod_cast c2

/-- The number 1.99…9 (all N limbs). -/
def almostTwo (c : Cfg) : DW := { data := 1 :: List.replicate (c.N - 1) (c.B - 1), exp := 0, neg := false, prec := c.N }

theorem almostTwo_full (c : Cfg) : Full c (almostTwo c) := by
  have hB := c.one_lt_B
  refine ⟨⟨?_, ?_, dvd_zero _, ?_, le_refl _, ?_⟩, rfl⟩
  · have := c.three_le_N
    show (1 :: List.replicate (c.N - 1) (c.B - 1)).length = c.N
    simp; omega
  · refine validLimbs_cons.mpr ⟨hB, fun d hd => ?_⟩
    have := List.eq_of_mem_replicate hd
    omega
  · have := c.three_le_N; show 2 ≤ c.N; omega
  · intro h; simp [almostTwo, d0] at h

theorem conv_almostTwo (L : Limb) {N : ℕ} (hN : 2 ≤ N) :
    (2 * N - 4) * ((L.half - 1) * (L.half - 1)) ≤
      conv (splitHalf L (1 :: List.replicate (N - 1) (L.mask - 1))) (splitHalf L (1 :: List.replicate (N - 1) (L.mask - 1))) (2 * N - 1) := by
  have hh := L.half_ge
  have hsq := L.half_sq
  have hall : ∀ d ∈ splitHalf L (List.replicate (N - 1) (L.mask - 1)), d = L.half - 1 := by
    intro d hd
    unfold splitHalf at hd
    rw [List.mem_flatMap] at hd
    obtain ⟨y, hy, hd⟩ := hd
    have hy := List.eq_of_mem_replicate hy
    have hm : y = L.half * (L.half - 1) + (L.half - 1) := by
      rw [hy, ← hsq]
      obtain ⟨t, ht⟩ : ∃ t, L.half = t + 1 := ⟨L.half - 1, by omega⟩
      rw [ht, Nat.add_sub_cancel]
      have : (t + 1) ^ 2 = (t + 1) * t + t + 1 := by ring
      omega
    simp only [List.mem_cons, List.not_mem_nil, or_false] at hd
    have e1 : y / L.half = L.half - 1 := by
      rw [hm, Nat.mul_add_div (by omega), Nat.div_eq_of_lt (by omega)]; rfl
    have e2 : y % L.half = L.half - 1 := by
      rw [hm, Nat.mul_add_mod, Nat.mod_eq_of_lt (by omega)]
    rcases hd with rfl | rfl <;> assumption
  have hlen : (splitHalf L (List.replicate (N - 1) (L.mask - 1))).length = 2 * (N - 1) := by rw [splitHalf_length, List.length_replicate]
  have hget : ∀ i, 2 ≤ i → i < 2 * N → (splitHalf L (1 :: List.replicate (N - 1) (L.mask - 1))).getD i 0 = L.half - 1 := by
    intro i h2 hi
    obtain ⟨k, rfl⟩ : ∃ k, i = k + 1 + 1 := ⟨i - 2, by omega⟩
    show (1 / L.half :: 1 % L.half :: splitHalf L (List.replicate (N - 1) (L.mask - 1))).getD (k + 1 + 1) 0 = _
    rw [List.getD_cons_succ, List.getD_cons_succ]
    have hk : k < (splitHalf L (List.replicate (N - 1) (L.mask - 1))).length := by omega
    simp only [List.getD, List.getElem?_eq_getElem hk, Option.getD_some]
    exact hall _ (List.getElem_mem hk)
  unfold conv
  have hsub : Ico 2 (2 * N - 2) ⊆ range (2 * N - 1 + 1) := by intro x; simp only [mem_range, mem_Ico]; omega
  refine le_trans ?_ (sum_le_sum_of_subset hsub)
  rw [sum_congr rfl (g := fun _ => (L.half - 1) * (L.half - 1)) (fun i hi => by
    rw [mem_Ico] at hi
    rw [hget i hi.1 (by omega), hget (2 * N - 1 - i) (by omega) (by omega)])]
  rw [sum_const, Nat.card_Ico, smul_eq_mul, show 2 * N - 2 - 2 = 2 * N - 4 by omega]

/-- C25, negative part. However accurate the transforms are, the product of 1.99…9 with itself computed with the FFT is too
    small by at least (2N-4)(h-1)²/h units of 10^(-ed(N-2)). (The exact product truncated to N limbs would be too small by less
    than one unit of 10^(-ed(N-1)).) -/
theorem fft_product_loses_digits (c : Cfg) (F : Flt) (hN : 1793 ≤ c.N) (hE : 0 < c.maxExp) (hF : 8 * c.N * 10 ^ c.ed ≤ 2 ^ F.p)
    (h64 : 8 * c.N * 10 ^ c.ed ≤ 2 ^ 64) (hacc : FftAccurate c F (almostTwo c) (almostTwo c)) :
    (2 * c.N - 4) * (10 ^ (c.ed / 2) - 1) ^ 2 / 10 ^ (c.ed / 2) * (10 : ℚ) ^ (-((c.ed : ℤ) * (c.N - 2))) ≤
      (almostTwo c).val c * (almostTwo c).val c - (mulAssign c (almostTwo c) (almostTwo c)).val c := by
  have hx := almostTwo_full c
  have hB := c.one_lt_B
  have hxz : (almostTwo c).isZero = false := rfl
  have h1 : isOneSN c (almostTwo c) = false := by
    obtain ⟨k, hk⟩ : ∃ k, c.N - 1 = k + 1 := ⟨c.N - 2, by omega⟩
    simp [isOneSN, almostTwo, d0, hk, List.replicate_succ]
    omega
  rw [← c.B_eq] at hF h64
  have hee : (almostTwo c).exp + (almostTwo c).exp = 0 := rfl
  obtain ⟨-, -, q3, -, q5⟩ := mul_fft_value hx hx hxz hxz hN hF h64 hacc h1 h1 (by rw [hee]; omega) (by rw [hee]; omega)
  have hh := c.L.half_ge
  have loss := convSum_loss (h := c.L.half) (n := 2 * c.N) (a := splitHalf c.L (almostTwo c).data) (b := splitHalf c.L (almostTwo c).data)
    (by omega) (by omega) (by rw [splitHalf_length, hx.len]) (by rw [splitHalf_length, hx.len]) (splitHalf_valid c.L hx.valid)
  have hcv := conv_almostTwo c.L (N := c.N) (by omega)
  change _ ≤ conv (splitHalf c.L (almostTwo c).data) (splitHalf c.L (almostTwo c).data) (2 * c.N - 1) at hcv
  rw [limbsVal_half, pow_mul, c.L.half_sq] at loss
  have hpow : (c.B : ℚ) ^ c.N * 10 ^ ((almostTwo c).lexp c + (almostTwo c).lexp c) = 10 ^ (-((c.ed : ℤ) * (c.N - 2))) := by
    rw [mul_comm, c.p10_mul_B]; congr 1; unfold lexp; show 0 - _ + (0 - _) + _ = _; ring
  have hprod : (almostTwo c).val c * (almostTwo c).val c =
      (limbsVal c.B (almostTwo c).data * limbsVal c.B (almostTwo c).data : ℕ) * 10 ^ ((almostTwo c).lexp c + (almostTwo c).lexp c) := by
    rw [← abs_mul_abs_self, abs_val, zpow_add₀ (by norm_num)]; unfold mant; push_cast; ring
  have hw : (mulAssign c (almostTwo c) (almostTwo c)).val c = |(mulAssign c (almostTwo c) (almostTwo c)).val c| := by
    rw [val_sgn c (mulAssign c (almostTwo c) (almostTwo c)), q3]
    simp [abs_abs]
  rw [hw, q5, hprod, hee, show (0 : ℤ) - c.ed * (c.N - 2) = -((c.ed : ℤ) * (c.N - 2)) by ring, ← hpow]
  generalize hT : convSum c.L.half (conv (splitHalf c.L (almostTwo c).data) (splitHalf c.L (almostTwo c).data)) (2 * c.N - 1) = T at *
  generalize conv (splitHalf c.L (almostTwo c).data) (splitHalf c.L (almostTwo c).data) (2 * c.N - 1) = C at *
  change T * c.B ^ c.N + C * c.L.half ^ (2 * c.N - 1) ≤ limbsVal c.B (almostTwo c).data * limbsVal c.B (almostTwo c).data at loss
  generalize limbsVal c.B (almostTwo c).data * limbsVal c.B (almostTwo c).data = P at *
  have hp := p10_pos ((almostTwo c).lexp c + (almostTwo c).lexp c)
  generalize (10 : ℚ) ^ ((almostTwo c).lexp c + (almostTwo c).lexp c) = z at *
  have hhq : ((10 : ℚ) ^ (c.ed / 2)) = c.L.half := by unfold Limb.half; push_cast; rfl
  have hBN : (c.B : ℚ) ^ c.N = (c.L.half : ℚ) * (c.L.half : ℚ) ^ (2 * c.N - 1) := by
    rw [← pow_succ', show 2 * c.N - 1 + 1 = 2 * c.N by omega, pow_mul]
    congr 1
    have := c.L.half_sq
    exact_mod_cast this.symm
  have hhpos : (0 : ℚ) < c.L.half := by exact_mod_cast (by omega : 0 < c.L.half)
  have l1 : (T : ℚ) * (c.B : ℚ) ^ c.N + C * (c.L.half : ℚ) ^ (2 * c.N - 1) ≤ P := by exact_mod_cast loss
  have l2 : (2 * (c.N : ℚ) - 4) * ((c.L.half : ℚ) - 1) ^ 2 ≤ C := by
    have e : (((2 * c.N - 4) * ((c.L.half - 1) * (c.L.half - 1)) : ℕ) : ℚ) ≤ C := by exact_mod_cast hcv
    rw [Nat.cast_mul, Nat.cast_sub (by omega), Nat.cast_mul, Nat.cast_mul, Nat.cast_sub (by omega)] at e
    push_cast at e
    rw [pow_two]; exact e
  rw [hhq]
  have l3 : (2 * (c.N : ℚ) - 4) * ((c.L.half : ℚ) - 1) ^ 2 / c.L.half * (c.B : ℚ) ^ c.N ≤ C * (c.L.half : ℚ) ^ (2 * c.N - 1) := by
    rw [hBN, div_mul_eq_mul_div, div_le_iff₀ hhpos]
    have := mul_le_mul_of_nonneg_right l2 (show (0:ℚ) ≤ (c.L.half : ℚ) * (c.L.half : ℚ) ^ (2 * c.N - 1) by positivity)
    linarith
  have l4 : (2 * (c.N : ℚ) - 4) * ((c.L.half : ℚ) - 1) ^ 2 / c.L.half * (c.B : ℚ) ^ c.N ≤ P - T * (c.B : ℚ) ^ c.N := by linarith
  have := mul_le_mul_of_nonneg_right l4 hp.le
  linarith

/-- A configuration whose transforms are exact. -/
def exactFft (L : Limb) (d E : ℕ) (F : Flt) : Cfg :=
  { L := L, digits10 := d, maxExp := E,
    fft := fun a b => fftRelease L F (fun j => (conv (splitHalf L a) (splitHalf L b) j : ℚ)) a.length }

theorem exactFft_accurate (L : Limb) (d E : ℕ) (F : Flt) {x y : DW} (hx : WF (exactFft L d E F) x) :
    FftAccurate (exactFft L d E F) F x y :=
  ⟨fun j => (conv (splitHalf L x.data) (splitHalf L y.data) j : ℚ), fun j _ => by
    show |(conv (splitHalf L x.data) (splitHalf L y.data) j : ℚ) - conv (splitHalf L x.data) (splitHalf L y.data) j| ≤ 1 / 4
    rw [sub_self, abs_zero]; norm_num, by
    show fftRelease L F _ x.data.length = _
    rw [hx.len]; rfl⟩

/-- C25, negative part, with numbers: 8-bit limbs, 3580 digits, exact transforms: the product of 1.99…9 with itself has a
    relative error above 72·10^-3580, and for 32-bit limbs, 1000000 digits, double-precision transforms that happen to be exact,
    above 6·10^-1000000. So multiplication does not deliver digits10 correct digits at these sizes. -/
theorem fft_product_not_accurate :
    (let c := exactFft .u8 3580 64 exFloat
     72 * (10 : ℚ) ^ (-(c.digits10 : ℤ)) * ((almostTwo c).val c * (almostTwo c).val c) <
      |(mulAssign c (almostTwo c) (almostTwo c)).val c - (almostTwo c).val c * (almostTwo c).val c|) ∧
    (let c := exactFft .u32 1000000 (2 ^ 59) exDouble
     6 * (10 : ℚ) ^ (-(c.digits10 : ℤ)) * ((almostTwo c).val c * (almostTwo c).val c) <
      |(mulAssign c (almostTwo c) (almostTwo c)).val c - (almostTwo c).val c * (almostTwo c).val c|) := by
  have key : ∀ (c : Cfg) (K G : ℚ), 0 < K → 0 < c.maxExp →
      G * (10 : ℚ) ^ (-((c.ed : ℤ) * (c.N - 2))) ≤ (almostTwo c).val c * (almostTwo c).val c - (mulAssign c (almostTwo c) (almostTwo c)).val c →
      (c.digits10 : ℤ) + c.ed = c.ed * (c.N - 2) → 4 * K * 10 ^ c.ed < G →
      K * (10 : ℚ) ^ (-(c.digits10 : ℤ)) * ((almostTwo c).val c * (almostTwo c).val c) <
      |(mulAssign c (almostTwo c) (almostTwo c)).val c - (almostTwo c).val c * (almostTwo c).val c| := by
    intro c K G hK hE h hd hG
    rw [abs_sub_comm]
    refine lt_of_lt_of_le ?_ (le_abs_self _)
    refine lt_of_lt_of_le ?_ h
    rw [← hd, neg_add, zpow_add₀ (by norm_num)]
    have hp := p10_pos (-(c.digits10 : ℤ))
    have hq := p10_pos (-(c.ed : ℤ))
    have hlt : |(almostTwo c).val c| < 2 := by
      have hB := c.B_pos
      rw [abs_val]
      have hm : (almostTwo c).mant c + 1 = 2 * c.B ^ (c.N - 1) := by
        show limbsVal c.B (1 :: List.replicate (c.N - 1) (c.B - 1)) + 1 = _
        rw [limbsVal_cons, List.length_replicate]
        have := limbsVal_nines hB (l := List.replicate (c.N - 1) (c.B - 1)) (fun d hd => List.eq_of_mem_replicate hd)
        rw [List.length_replicate] at this
        omega
      have hz := p10_pos ((almostTwo c).lexp c)
      have hone : (c.B : ℚ) ^ (c.N - 1) * 10 ^ ((almostTwo c).lexp c) = 1 := by
        rw [mul_comm, c.p10_mul_B]
        have h3 := c.three_le_N
        have : ((c.N - 1 : ℕ) : ℤ) = (c.N : ℤ) - 1 := by omega
        rw [this]; unfold lexp; show (10 : ℚ) ^ (0 - _ + _) = 1
        rw [show (0 : ℤ) - c.ed * ((c.N : ℤ) - 1) + c.ed * ((c.N : ℤ) - 1) = 0 by ring, zpow_zero]
      have hm' : ((almostTwo c).mant c : ℚ) = 2 * (c.B : ℚ) ^ (c.N - 1) - 1 := by
        have : (((almostTwo c).mant c + 1 : ℕ) : ℚ) = ((2 * c.B ^ (c.N - 1) : ℕ) : ℚ) := by rw [hm]
        push_cast at this; linarith
      rw [hm', sub_mul, mul_assoc, hone]; linarith
    have hsq : (almostTwo c).val c * (almostTwo c).val c < 4 := by
      rw [← abs_mul_abs_self]
      have h0 := abs_nonneg ((almostTwo c).val c)
      nlinarith
    have hone : (10 : ℚ) ^ c.ed * 10 ^ (-(c.ed : ℤ)) = 1 := by
      rw [← zpow_natCast, ← zpow_add₀ (by norm_num)]; simp
    have e1 : K * (10 : ℚ) ^ (-(c.digits10 : ℤ)) * ((almostTwo c).val c * (almostTwo c).val c) < K * 10 ^ (-(c.digits10 : ℤ)) * 4 :=
      mul_lt_mul_of_pos_left hsq (mul_pos hK hp)
    refine lt_trans e1 ?_
    have e2 : 4 * K < G * 10 ^ (-(c.ed : ℤ)) := by
      have := mul_lt_mul_of_pos_right hG hq
      rw [mul_assoc, hone, mul_one] at this
      exact this
    have := mul_lt_mul_of_pos_right e2 hp
    linarith
  constructor
  · intro c
    have hN : c.N = 1793 := by decide
    have hed : c.ed = 2 := rfl
    have h := fft_product_loses_digits c exFloat (by rw [hN]) (by decide) (by rw [hN, hed]; decide) (by rw [hN, hed]; decide)
      (exactFft_accurate _ _ _ _ (almostTwo_full c).toWF)
    refine key c 72 _ (by norm_num) (by decide) h ?_ ?_
    · rw [hN, hed]; show (3580 : ℤ) + _ = _; norm_num
    · rw [hN, hed]; norm_num
  · intro c
    have hN : c.N = 125003 := by decide
    have hed : c.ed = 8 := rfl
    have h := fft_product_loses_digits c exDouble (by rw [hN]; norm_num) (by decide) (by rw [hN, hed]; decide) (by rw [hN, hed]; decide)
      (exactFft_accurate _ _ _ _ (almostTwo_full c).toWF)
    refine key c 6 _ (by norm_num) (by decide) h ?_ ?_
    · rw [hN, hed]; show (1000000 : ℤ) + _ = _; norm_num
    · rw [hN, hed]; norm_num

/-- The hypotheses of `mul_fft_error_partial` and `fft_release_partial` are met: 1793 limbs of 8 bits, exact transforms. -/
example : let c := exactFft .u8 3580 64 exFloat
    1793 ≤ c.N ∧ Full c (almostTwo c) ∧ 8 * c.N * 10 ^ c.ed ≤ 2 ^ exFloat.p ∧ 8 * c.N * 10 ^ c.ed ≤ 2 ^ 64 ∧
    FftAccurate c exFloat (almostTwo c) (almostTwo c) :=
  ⟨by decide, almostTwo_full _, by decide, by decide, exactFft_accurate _ _ _ _ (almostTwo_full _).toWF⟩

/-- A small product through the carry release: limbs 12 00 times 34 00, one-digit half-limbs, transform values off by 1/5. -/
example : fftRelease .u8 exFloat (fun j => ([3.2, 10, 7.8, 0] : List ℚ).getD j 0) 2 = [4, 8] := by decide +kernel

end WD
