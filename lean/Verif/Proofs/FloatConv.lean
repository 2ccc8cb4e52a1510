import Verif.Model.FloatConv
import Verif.Props.Pow
import Verif.Props.Div
import Mathlib.Algebra.Order.Floor.Semifield
/-
  Lemmas for the conversion from built-in floating-point numbers.
-/
namespace WD
open DW

/-! ### the parts of a float -/

theorem or_one_of_even (A : ℕ) : 2 * A ||| 1 = 2 * A + 1 := by
  have := Nat.two_pow_add_eq_or_of_lt (i := 1) (b := 1) (by norm_num) A
  simpa using this.symm

/-- Loop invariant: with the bits A already stored (and shifted), the remaining n bits M are appended. -/
theorem bitLoop_spec : ∀ (n A M : ℕ), M < 2 ^ (n + 1) → A * 2 ^ (n + 1) + M < 2 ^ 64 →
    bitLoop (n + 1) ((M : ℚ) / 2 ^ (n + 1)) (2 * A) = A * 2 ^ (n + 1) + M
  | n, A, M, hM, hA => by
    have hpow : (2 : ℕ) ^ (n + 1) = 2 ^ n * 2 := pow_succ 2 n
    have hp : 0 < 2 ^ n := Nat.two_pow_pos n
    have hman : (M : ℚ) / 2 ^ (n + 1) * 2 = M / 2 ^ n := by rw [pow_succ]; field_simp
    have hfl : ⌊(M : ℚ) / 2 ^ n⌋₊ = M / 2 ^ n := by
      have := Nat.floor_div_natCast (K := ℚ) (M : ℚ) (2 ^ n)
      push_cast at this; rw [this, Nat.floor_natCast]
    have hb : M / 2 ^ n < 2 := by rw [Nat.div_lt_iff_lt_mul hp]; omega
    have hdm := Nat.div_add_mod M (2 ^ n)
    have hml := Nat.mod_lt M hp
    have hrest : (M : ℚ) / 2 ^ n - ((M / 2 ^ n : ℕ) : ℚ) = ((M % 2 ^ n : ℕ) : ℚ) / 2 ^ n := by
      have : (M : ℚ) = 2 ^ n * ((M / 2 ^ n : ℕ) : ℚ) + ((M % 2 ^ n : ℕ) : ℚ) := by exact_mod_cast hdm.symm
      generalize ((M / 2 ^ n : ℕ) : ℚ) = a at *
      generalize ((M % 2 ^ n : ℕ) : ℚ) = b at *
      rw [this]; field_simp; ring
    have hacc : (if M / 2 ^ n ≠ 0 then 2 * A ||| 1 else 2 * A) = 2 * A + M / 2 ^ n := by
      by_cases h : M / 2 ^ n = 0
      · rw [if_neg (by omega), h]; rfl
      · rw [if_pos h, or_one_of_even]; omega
    rw [bitLoop]
    simp only [hman, hfl, hrest, hacc]
    rw [hpow] at hA ⊢
    generalize hbd : M / 2 ^ n = b at *
    generalize hr : M % 2 ^ n = r at *
    have e1 : A * (2 ^ n * 2) + M = (2 * A + b) * 2 ^ n + r := by rw [← hdm]; ring
    rw [e1] at hA ⊢
    cases n with
    | zero =>
      have : r = 0 := by omega
      simp [bitLoop, this]
    | succ k =>
      have hs : ((2 * A + b) <<< 1) % 2 ^ 64 = 2 * (2 * A + b) := by
        rw [Nat.shiftLeft_eq, pow_one, Nat.mod_eq_of_lt, Nat.mul_comm]
        have : (2 * A + b) * 2 ≤ (2 * A + b) * 2 ^ (k + 1) :=
          Nat.mul_le_mul_left _ (by rw [pow_succ]; have := Nat.two_pow_pos k; omega)
        omega
      rw [if_pos (by omega), hs]
      exact bitLoop_spec k (2 * A + b) r hml hA

theorem int_log_eq {f : ℚ} {e : ℤ} (h1 : (2 : ℚ) ^ e ≤ f) (h2 : f < (2 : ℚ) ^ (e + 1)) : Int.log 2 f = e := by
  have hf : 0 < f := lt_of_lt_of_le (by positivity) h1
  have a : e ≤ Int.log 2 f := (Int.zpow_le_iff_le_log (by norm_num) hf).mp (by exact_mod_cast h1)
  have b : Int.log 2 f < e + 1 := (Int.lt_zpow_iff_log_lt (by norm_num) hf).mp (by exact_mod_cast h2)
  omega

/-- The parts of a normal number m·2^k with p significant bits. -/
theorem nativeParts_spec {p m : ℕ} {k : ℤ} {minN : ℚ} (hp : 0 < p) (hp64 : p ≤ 64) (h1 : 2 ^ (p - 1) ≤ m) (h2 : m < 2 ^ p)
    (hmin : minN ≤ m * (2 : ℚ) ^ k) : nativeParts p minN (m * (2 : ℚ) ^ k) = (m, k + p - 1) := by
  obtain ⟨n, rfl⟩ : ∃ n, p = n + 1 := ⟨p - 1, by omega⟩
  rw [Nat.add_sub_cancel] at h1
  have hk : (0 : ℚ) < 2 ^ k := by positivity
  have hlog : Int.log 2 ((m : ℚ) * 2 ^ k) = k + n := by
    apply int_log_eq
    · rw [add_comm, zpow_add₀ (by norm_num), zpow_natCast]
      exact mul_le_mul_of_nonneg_right (by exact_mod_cast h1) hk.le
    · rw [show k + (n : ℤ) + 1 = ((n + 1 : ℕ) : ℤ) + k by push_cast; ring, zpow_add₀ (by norm_num), zpow_natCast]
      exact mul_lt_mul_of_pos_right (by exact_mod_cast h2) hk
  unfold nativeParts
  rw [if_neg (not_lt.mpr hmin), hlog]
  have hfr : (m : ℚ) * 2 ^ k / 2 ^ (k + (n : ℤ) + 1) = m / 2 ^ (n + 1) := by
    rw [show k + (n : ℤ) + 1 = ((n + 1 : ℕ) : ℤ) + k by push_cast; ring, zpow_add₀ (by norm_num), zpow_natCast]
    field_simp
  have h64 : (2 : ℕ) ^ (n + 1) ≤ 2 ^ 64 := Nat.pow_le_pow_right (by norm_num) hp64
  have hb := bitLoop_spec n 0 m h2 (by omega)
  simp only [Nat.mul_zero, Nat.zero_mul, Nat.zero_add] at hb
  simp only [hfr, hb, Nat.add_sub_cancel, Nat.one_shiftLeft]
  have hlt : 2 ^ n < 2 ^ 64 := lt_of_le_of_lt h1 (lt_of_lt_of_le h2 h64)
  rw [Nat.mod_eq_of_lt hlt]
  refine Prod.ext ?_ (by push_cast; ring)
  have hm := pow_succ 2 n
  have := Nat.two_pow_add_eq_or_of_lt (i := n) (b := m - 2 ^ n) (by omega) 1
  rw [Nat.mul_one] at this
  have hm2 : m = 2 ^ n ||| (m - 2 ^ n) := by rw [← this]; omega
  show m ||| 2 ^ n = m
  conv_lhs => rw [hm2]
  conv_rhs => rw [hm2]
  rw [Nat.or_comm, ← Nat.or_assoc, Nat.or_self]

theorem nativeParts_zero {p : ℕ} {minN f : ℚ} (h : f < minN) : nativeParts p minN f = (0, 0) := by
  unfold nativeParts; rw [if_pos h]

/-! ### constants and scaling -/

theorem half_full (c : Cfg) : Full c (half c) :=
  fromLst_single_full (by unfold Cfg.B; cases c.L <;> decide) (dvd_neg.mpr (dvd_refl _))

theorem half_val (c : Cfg) : (half c).val c = 1 / 2 := by
  rw [half, fromLst_single_val]
  have hB : c.B / 2 * 2 = c.B := by unfold Cfg.B; cases c.L <;> decide
  have hBq : ((c.B / 2 : ℕ) : ℚ) * 2 = c.B := by exact_mod_cast hB
  have hBe : (c.B : ℚ) * (10 : ℚ) ^ (-(c.ed : ℤ)) = 1 := by
    rw [c.B_eq, zpow_neg, zpow_natCast]; push_cast
    exact mul_inv_cancel₀ (by positivity)
  simp only [Bool.false_eq_true, if_false]
  generalize ((c.B / 2 : ℕ) : ℚ) = h at *
  rw [← hBq] at hBe
  linarith

/-- A truncated result whose exact value has few digits is exact. -/
theorem trunc_sig_exact {c : Cfg} {w : DW} {q : ℚ} (hw : Full c w) (hw0 : w.isZero = false) (h1 : |w.val c| ≤ q)
    (h2 : q < |w.val c| + w.ulp c) (hs : SigDigits (c.digits10 + 2 * c.ed + 1) q) : |w.val c| = q := by
  obtain ⟨k, e, hk, hv⟩ := hs
  have hwe := hw.toWF.abs_ge hw0
  have hq0 : 0 ≤ q := le_trans (abs_nonneg _) h1
  have he : w.lexp c ≤ e := by
    have h3 : (10 : ℚ) ^ w.exp < 10 ^ (((c.digits10 + 2 * c.ed + 1 : ℕ) : ℤ) + e) := by
      refine lt_of_le_of_lt (le_trans hwe h1) ?_
      rw [← abs_of_nonneg hq0, hv, abs_mul, abs_of_pos (p10_pos e), zpow_add₀ (by norm_num), zpow_natCast]
      exact mul_lt_mul_of_pos_right (by exact_mod_cast hk) (p10_pos e)
    have h4 := (zpow_lt_zpow_iff_right₀ (by norm_num : (1 : ℚ) < 10)).mp h3
    have h5 := c.digits_le
    have h6 := c.three_le_N
    have h7 : ((c.ed * (c.N - 1) : ℕ) : ℤ) = c.ed * ((c.N : ℤ) - 1) := by
      push_cast [show 1 ≤ c.N by omega]; ring
    unfold lexp
    omega
  obtain ⟨d, hd⟩ : ∃ d : ℕ, e = d + w.lexp c := ⟨(e - w.lexp c).toNat, by omega⟩
  have hmul : q = ((k * 10 ^ d : ℤ) : ℚ) * (10 : ℚ) ^ w.lexp c := by
    rw [hv, hd, zpow_add₀ (by norm_num), zpow_natCast]
    push_cast; ring
  rw [hmul] at h1 h2 ⊢
  rw [abs_val] at h1 h2 ⊢
  rw [ulp_eq] at h2
  have := multiple_unique (p10_pos (w.lexp c)) (m := k * 10 ^ d) (n := w.mant c) (by
    rw [abs_lt]; push_cast at h1 h2 ⊢; constructor <;> linarith [p10_pos (w.lexp c)])
  rw [this]; push_cast; rfl

/-- Division by n is exact if the quotient leaves the last two limbs free. -/
theorem divULL_exact {c : Cfg} {est : DW → DW} {fdig : ℕ} {x : DW} (hx : Full c x) (hxz : x.isZero = false) {n K : ℕ}
    (h1 : 1 < n) (hn : n < c.B) (he : -(c.maxExp : ℤ) ≤ x.exp - c.ed) (hK : x.mant c = n * (K * c.B ^ 2)) :
    |(divULL c est fdig x n).val c| = |x.val c| / n := by
  obtain ⟨s1, s2, -, -, s5, s6⟩ := divULL_small (est := est) (fdig := fdig) hx hxz (by omega : 0 < n) hn he
  have hnq : (n : ℚ) ≠ 0 := by exact_mod_cast (by omega : n ≠ 0)
  have h3 := c.three_le_N
  have hB := c.B_pos
  rcases s6 with hsame | hshift
  · obtain ⟨t1, t2⟩ := s5 hsame
    generalize hr : divULL c est fdig x n = r at *
    have hxq : |x.val c| / n = ((K * c.B ^ 2 : ℕ) : ℤ) * (10 : ℚ) ^ r.lexp c := by
      rw [abs_val, hK]
      have : x.lexp c = r.lexp c := by unfold lexp; rw [hsame]
      rw [this]; push_cast; field_simp
    rw [hxq] at t1 t2 ⊢
    rw [abs_val] at t1 t2 ⊢
    rw [ulp_eq] at t2
    have := multiple_unique (p10_pos (r.lexp c)) (m := ((K * c.B ^ 2 : ℕ) : ℤ)) (n := r.mant c) (by
      rw [abs_lt]; push_cast at t1 t2 ⊢; constructor <;> linarith [p10_pos (r.lexp c)])
    rw [this]; push_cast; rfl
  · have hr : divULL c est fdig x n = divULL c est fdig x n := rfl
    conv_rhs at hr => unfold divULL
    simp only [hxz, Bool.false_eq_true, if_false] at hr
    rw [if_neg (by omega), if_neg (by omega), if_pos h1] at hr
    obtain ⟨a1, a2⟩ := divULL_core hx hxz h1 hn
    simp only at a1 a2
    obtain ⟨q1, q2, q3, q4⟩ := divLoop_spec c.L (n := n) (by omega) hn.le 0 x.data (by omega) hx.valid
    have htk : x.data.take x.prec = x.data := by rw [hx.full]; exact List.take_of_length_le (by rw [hx.len])
    have hdr : x.data.drop x.prec = [] := by rw [hx.full]; exact List.drop_of_length_le (by rw [hx.len])
    rw [htk, hdr] at hr a1 a2
    rw [List.append_nil] at hr a1 a2
    set s := divLoop c.L n 0 x.data with hs
    by_cases hh : s.1.headD 0 = 0
    · simp only [hh, if_true] at hr
      obtain ⟨b1, b2, b3, a, b, b4, b5, b6, b7, b8, b9⟩ := a2 hh
      rw [if_neg (by simpa using he)] at hr
      -- the quotient
      have q4' : limbsVal c.B s.1 * n + s.2 = x.mant c := by
        rw [Nat.zero_mul, Nat.zero_add] at q4; exact q4
      have hq : limbsVal c.B s.1 = K * c.B ^ 2 := by
        have e1 : n * limbsVal c.B s.1 + s.2 = n * (K * c.B ^ 2) := by rw [← hK, ← q4']; ring
        have e2 : s.2 = 0 := by
          have := congrArg (· % n) e1
          simpa [Nat.mul_add_mod, Nat.mod_eq_of_lt q3] using this
        rw [e2, Nat.add_zero] at e1
        exact Nat.eq_of_mul_eq_mul_left (by omega) e1
      rw [hx.len] at q1
      obtain ⟨P, a', b', hP, hPl⟩ := list_last2 (l := s.1) (n := c.N - 2) (by omega)
      have ha : a = a' := by
        rw [b6, hP]; simp [List.getD, List.getElem?_append_right, hPl]
      have hb : b = b' := by
        rw [b7, hP]
        have : c.N - 1 - P.length = 1 := by omega
        simp only [List.getD]
        rw [List.getElem?_append_right (by omega), this]; rfl
      subst ha; subst hb
      rw [hP, limbsVal_append, limbsVal_two] at hq
      simp only [List.length_cons, List.length_nil, Nat.zero_add, Nat.reduceAdd] at hq
      have hab : a * c.B + b = 0 := by
        have h5 : a * c.B + b < c.B ^ 2 := by
          rw [pow_two]
          calc a * c.B + b < a * c.B + c.B := by omega
            _ = (a + 1) * c.B := by ring
            _ ≤ _ := Nat.mul_le_mul_right _ (by omega)
        have := congrArg (· % c.B ^ 2) hq
        simp only [Nat.mul_add_mod_self_right, Nat.mul_mod_left] at this
        rwa [Nat.mod_eq_of_lt h5] at this
      have hb0 : b = 0 := by omega
      have ha0 : a = 0 := by
        have : a * c.B = 0 := by omega
        rcases Nat.mul_eq_zero.mp this with h | h <;> omega
      subst ha0; subst hb0
      simp only [Nat.zero_mul, Nat.add_zero] at b8 b9
      have hrm : (divULL c est fdig x n).mant c = K * c.B ^ 3 := by
        have e0 : ∀ y : DW, (y.mant c) = limbsVal c.B y.data := fun _ => rfl
        rw [e0, hr]
        show limbsVal c.B ((((s.1.drop 1).take (x.prec - 2) ++ s.1.drop (x.prec - 2)).set (x.prec - 1) ((s.2 * c.B / n) % c.L.W))) = _
        rw [hK] at b8 b9
        revert b8 b9
        generalize limbsVal c.B (List.set _ _ _) = R
        intro b8 b9
        have f1 : n * R ≤ n * (K * c.B ^ 3) := by calc n * R = R * n := by ring
            _ ≤ _ := b8
            _ = _ := by ring
        have f2 : n * (K * c.B ^ 3) < n * (R + 1) := by calc n * (K * c.B ^ 3) = n * (K * c.B ^ 2) * c.B := by ring
            _ < _ := b9
            _ = _ := by ring
        have f3 := Nat.le_of_mul_le_mul_left f1 (by omega)
        have f4 := Nat.lt_of_mul_lt_mul_left f2
        omega
      rw [abs_val, abs_val, hrm, hK]
      have hl : (10 : ℚ) ^ x.lexp c = 10 ^ (divULL c est fdig x n).lexp c * c.B := by
        have := c.p10_mul_B ((divULL c est fdig x n).lexp c) 1
        rw [pow_one] at this
        rw [this]
        congr 1; unfold lexp; rw [hshift]; push_cast; ring
      rw [hl]; push_cast; field_simp
    · simp only [hh, if_false] at hr
      rw [if_neg (by have := c.ed_pos; simp; omega)] at hr
      exfalso
      have : (divULL c est fdig x n).exp = x.exp := by rw [hr]
      have := c.ed_pos
      omega

end WD
