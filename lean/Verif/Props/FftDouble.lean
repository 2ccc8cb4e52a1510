import Verif.Props.FftErr
import Verif.Proofs.FftDbl
/-
  C57 for the default types: the transforms in `double`.
-/
namespace WD
open DW Finset

/-- C57 (partial: up to 4096 limbs; the exponent range of the type and fused multiply-add are not modelled). The transforms in IEEE `double` (53 bits, ties to even; `long double`, the type of the
    sine table, is the same type or has at least 64 bits), limbs of any width, in particular the default 32-bit limbs of 8 digits: for p ≤ 4096 limbs and
    all limbs u, v every value after the inverse transform is within 1/4 of the true coefficient of the product, so that the rounding to integers recovers it exactly. -/
theorem fft_double_accurate_partial (L : Limb) (F FL : Flt) (hp : F.p = 53) (hF : F.rnd = roundEven 53) (hFL : FL = F ∨ 64 ≤ FL.p) (p : ℕ) (hp1 : 1 ≤ p) (hp2 : p ≤ 4096)
    (u v : List ℕ) (hu : u.length = p) (hv : v.length = p) (huv : ValidLimbs L.mask u) (hvv : ValidLimbs L.mask v) (j : ℕ) (hj : j < nFft p) :
    |(fltOps F FL).xaj L (Nat.log2 (nFft p / 16)) p u v j - conv (splitHalf L u) (splitHalf L v) j| ≤ 1 / 4 := by
  have hh := L.half_ge
  have hh2 : L.half ≤ 10000 := by cases L <;> decide
  obtain ⟨e, g1, g2⟩ := nFft_spec (le_trans hp2 (by norm_num) : p ≤ 2 ^ 29)
  generalize hm : Nat.log2 (nFft p / 16) = m at *
  have hm10 : m ≤ 10 := by
    have k12 := g2 12 (by norm_num) hp2
    rw [e] at k12
    by_contra hc
    have : 2 ^ 11 ≤ 2 ^ m := Nat.pow_le_pow_right (by norm_num) (by omega)
    omega
  have hue : (F.u : ℝ) = 1 / 2 ^ 53 := by
    have := F.u_eq
    rw [hp] at this
    rw [eq_div_iff (by positivity)]; exact this
  have R := fltOps_rnd (F := F) (FL := FL) (by omega) (by rcases hFL with rfl | h <;> omega) (by omega)
  have key := R.xaj_err L (KInt.twB_double hp hF hFL hm10) (by omega) (by omega) (by
      show ((F.rnd ((8 * 2 ^ m : ℕ) : ℚ) : ℚ) : ℝ) = _
      rw [show 8 * 2 ^ m = 2 ^ (m + 3) by ring, F.rnd_eq (RepF.pow2 _)]; push_cast; rfl) (by
      show F.rnd ((0 : ℕ) : ℚ) = 0
      rw [Nat.cast_zero, F.rnd_zero]) (by
      intro n hn
      show ((F.rnd ((n : ℕ) : ℚ) : ℚ) : ℝ) = _
      rw [F.rnd_eq (RepF.nat (by rw [hp]; omega))]; push_cast; rfl) u v hu hv huv hvv (j := j) (by omega)
  have hfin := KInt.fin_double hm10
  rw [hue] at key
  have a1 : (p : ℝ) ≤ 4096 := by exact_mod_cast hp2
  have a2 : ((L.half : ℝ) - 1) ^ 2 ≤ 9999 ^ 2 := by
    have h1 : (L.half : ℝ) ≤ 10000 := by exact_mod_cast hh2
    have h2 : (1 : ℝ) ≤ L.half := by exact_mod_cast (by omega : 1 ≤ L.half)
    exact pow_le_pow_left₀ (by linarith) (by linarith) 2
  have b : 4 * (p : ℝ) * ((L.half : ℝ) - 1) ^ 2 ≤ 4 * 4096 * 9999 ^ 2 := mul_le_mul (by linarith) a2 (by positivity) (by norm_num)
  have hb := le_trans (mul_le_mul_of_nonneg_left hfin (by positivity : 0 ≤ 4 * (p : ℝ) * ((L.half : ℝ) - 1) ^ 2))
    (mul_le_mul_of_nonneg_right b (by positivity : (0:ℝ) ≤ 900 / 2 ^ 53))
  have hq := le_trans key (le_trans hb (by norm_num : (4 : ℝ) * 4096 * 9999 ^ 2 * (900 / 2 ^ 53) ≤ 1 / 4))
  have : (((|(fltOps F FL).xaj L m p u v j - conv (splitHalf L u) (splitHalf L v) j| : ℚ)) : ℝ) ≤ ((1 / 4 : ℚ) : ℝ) := by
    push_cast
    exact hq
  exact_mod_cast this

/-- C57, C25, C04 (partial: up to 4096 limbs; exponent range and fused multiply-add not modelled; digits lost as in `fft_product_loses_digits`). A product of
    1793 to 4096 limbs in the default configuration of the library, with the whole FFT multiplication modelled: the result has full precision, the right sign
    and |x*y| ≤ |x·y| ≤ |x*y| + 2N(h-1)·10^(e_x+e_y-ed(N-2)). -/
theorem mul_fft_double_partial (L : Limb) (d E : ℕ) (F FL : Flt) (x y : DW) :
    let c := fltFft L d E F FL
    Full c x → Full c y → x.val c ≠ 0 → y.val c ≠ 0 → F.p = 53 → F.rnd = roundEven 53 → (FL = F ∨ 64 ≤ FL.p) → 1793 ≤ c.N → c.N ≤ 4096 →
    isOneSN c x = false → isOneSN c y = false → -(E : ℤ) < x.exp + y.exp → x.exp + y.exp < E →
    Full c (mulAssign c x y) ∧ ((mulAssign c x y).isNeg = true ↔ x.val c * y.val c < 0) ∧
    |(mulAssign c x y).val c| ≤ |x.val c * y.val c| ∧
    |x.val c * y.val c| ≤ |(mulAssign c x y).val c| + 2 * c.N * (10 ^ (c.ed / 2) - 1) * 10 ^ (x.exp + y.exp - c.ed * (c.N - 2)) := by
  intro c hx hy hx0 hy0 hp hF hFL hN hN2 o1 o2 hlo hhi
  have hacc : FftAccurate c F x y := fltFft_accurate hx.toWF (fun j hj =>
    fft_double_accurate_partial L F FL hp hF hFL c.N (by omega) hN2 x.data y.data hx.len hy.len hx.valid hy.valid j hj) (le_trans hN2 (by norm_num))
  have hB : 8 * c.N * 10 ^ c.ed ≤ 2 ^ 64 ∧ 8 * c.N * 10 ^ c.ed ≤ 2 ^ F.p := by
    have hc : c.ed = L.ed := rfl
    rw [hc, hp]
    have : 10 ^ L.ed ≤ 10 ^ 8 := Nat.pow_le_pow_right (by norm_num) (by cases L <;> decide)
    have := Nat.mul_le_mul_left (8 * c.N) this
    omega
  exact mul_fft_error_partial c F x y hx hy hx0 hy0 hN hB.2 hB.1 hacc o1 o2 hlo hhi

/-- The default configuration with 20000 digits: `uint32_t` limbs, transforms in `double`, the sine table in the 64-bit `long double` of x86. -/
example : let c := fltFft .u32 20000 (2 ^ 59) exDoubleE exLongDouble
    Full c (almostTwo c) ∧ (mulAssign c (almostTwo c) (almostTwo c)).isNeg = false ∧
    |(almostTwo c).val c * (almostTwo c).val c| ≤
      |(mulAssign c (almostTwo c) (almostTwo c)).val c| + 2 * 2503 * 9999 * (10 : ℚ) ^ (-20008 : ℤ) := by
  intro c
  have hx := almostTwo_full c
  have hN : c.N = 2503 := by decide
  have hx0 : (almostTwo c).val c ≠ 0 := by
    have := hx.toWF.abs_pos (c := c) rfl
    intro h; rw [h] at this; simp at this
  have h1 : isOneSN c (almostTwo c) = false := by
    obtain ⟨k, hk⟩ : ∃ k, c.N - 1 = k + 1 := ⟨c.N - 2, by omega⟩
    have hB := c.one_lt_B
    simp [isOneSN, almostTwo, d0, hk, List.replicate_succ]
    omega
  obtain ⟨-, q2, -, q4⟩ := mul_fft_double_partial .u32 20000 (2 ^ 59) exDoubleE exLongDouble (almostTwo c) (almostTwo c) hx hx hx0 hx0
    rfl rfl (Or.inr (le_refl _)) (by show 1793 ≤ c.N; omega) (by show c.N ≤ 4096; omega) h1 h1
    (by show -((2 ^ 59 : ℕ) : ℤ) < 0 + 0; norm_num) (by show (0 : ℤ) + 0 < ((2 ^ 59 : ℕ) : ℤ); norm_num)
  refine ⟨hx, ?_, ?_⟩
  · have h := mul_self_nonneg ((almostTwo c).val c)
    cases hb : (mulAssign c (almostTwo c) (almostTwo c)).isNeg with
    | false => rfl
    | true => exact absurd (q2.mp hb) (not_lt.mpr h)
  · change |(almostTwo c).val c * (almostTwo c).val c| ≤ |(mulAssign c (almostTwo c) (almostTwo c)).val c| +
      2 * (c.N : ℚ) * (10 ^ (c.ed / 2) - 1) * 10 ^ ((0:ℤ) + 0 - c.ed * (c.N - 2)) at q4
    rw [hN, show c.ed = 8 from rfl] at q4
    have e : ((0:ℤ) + 0 - ((8:ℕ):ℤ) * (((2503:ℕ):ℤ) - 2)) = -20008 := by norm_num
    rw [e] at q4
    generalize (10 : ℚ) ^ (-20008 : ℤ) = z at *
    norm_num at q4 ⊢
    exact q4

/-- The largest size, all limbs 99999999: the last but one coefficient. -/
example : |(fltOps exDoubleE exDoubleE).xaj .u32 (Nat.log2 (nFft 4096 / 16)) 4096 (List.replicate 4096 99999999) (List.replicate 4096 99999999) 1 -
    conv (splitHalf .u32 (List.replicate 4096 99999999)) (splitHalf .u32 (List.replicate 4096 99999999)) 1| ≤ 1 / 4 :=
  fft_double_accurate_partial .u32 exDoubleE exDoubleE rfl rfl (Or.inl rfl) 4096 (by norm_num) (by norm_num) _ _ (List.length_replicate ..) (List.length_replicate ..)
    (fun d hd => by rw [List.eq_of_mem_replicate hd]; decide) (fun d hd => by rw [List.eq_of_mem_replicate hd]; decide) 1
    (by have := (nFft_spec (p := 4096) (by norm_num)).2.1; omega)

end WD
