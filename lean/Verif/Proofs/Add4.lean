import Verif.Proofs.Add3

namespace WD
open DW

theorem lexpp_N (c : Cfg) (x : DW) : x.lexpp c c.N = x.lexp c := rfl

theorem ulp_le_of_exp_le {c : Cfg} {u v : DW} (h : v.exp ≤ u.exp) : v.ulp c ≤ u.ulp c :=
  zpow_le_zpow_right₀ (by norm_num) (by omega)

theorem max_ulp {c : Cfg} {u v : DW} (h : v.exp ≤ u.exp) : max (u.ulp c) (v.ulp c) = u.ulp c :=
  max_eq_left (ulp_le_of_exp_le h)

theorem exp_sub_dvd {c : Cfg} {u v : DW} (hu : WF c u) (hv : WF c v) :
    ∃ k : ℤ, u.exp - v.exp = k * c.ed := by
  obtain ⟨k, hk⟩ := dvd_sub hu.dvd hv.dvd
  exact ⟨k, by rw [hk, mul_comm]⟩

/-- The offset computed by `operator+=` (a truncated division of the exponent difference). -/
theorem ofs_eq {c : Cfg} {d k : ℤ} (h : d = k * c.ed) :
    (if 0 ≤ d then ((d.natAbs / c.ed : Nat) : ℤ) else -((d.natAbs / c.ed : Nat) : ℤ)) = k := by
  have hp := c.ed_pos
  have h1 : d.natAbs / c.ed = k.natAbs := by
    rw [h, Int.natAbs_mul, Int.natAbs_natCast, Nat.mul_div_cancel _ hp]
  rw [h1]
  have hpe : (0 : ℤ) < c.ed := by exact_mod_cast hp
  split
  · next h0 =>
    have : 0 ≤ k := by
      by_contra hk
      have : k * c.ed < 0 := mul_neg_of_neg_of_pos (by omega) hpe
      omega
    omega
  · next h0 =>
    have : k < 0 := by
      by_contra hk
      have : 0 ≤ k * c.ed := mul_nonneg (by omega) hpe.le
      omega
    omega

/-- A number whose exponent is lower by N limbs or more is below one unit of the other. -/
theorem small_lt_ulp {c : Cfg} {u v : DW} (hv : WF c v) (h : (c.N : ℤ) * c.ed ≤ u.exp - v.exp) :
    |v.val c| < u.ulp c := by
  refine lt_of_lt_of_le hv.abs_lt (zpow_le_zpow_right₀ (by norm_num) ?_)
  linarith

theorem val_mul_ulp (c : Cfg) (x : DW) : ∃ m : ℤ, x.val c = m * x.ulp c := by
  refine ⟨if x.neg then -(x.mant c : ℤ) else x.mant c, ?_⟩
  rw [val_eq, ulp_eq, sgn]
  split <;> push_cast <;> ring

/-- Same signs, full precision. -/
theorem addAssign_same {c : Cfg} {u v : DW} (hu : Full c u) (hv : Full c v) (huz : u.isZero = false)
    (hvz : v.isZero = false) (hs : u.neg = v.neg) :
    Full c (addAssign c u v) ∧ (addAssign c u v).neg = u.neg ∧ (addAssign c u v).isZero = false ∧
    u.exp ≤ (addAssign c u v).exp ∧ v.exp ≤ (addAssign c u v).exp ∧
    |(addAssign c u v).val c| ≤ |u.val c| + |v.val c| ∧
    |u.val c| + |v.val c| < |(addAssign c u v).val c| + (addAssign c u v).ulp c := by
  obtain ⟨k, hk⟩ := exp_sub_dvd hu.toWF hv.toWF
  have hed : (0 : ℤ) < c.ed := by exact_mod_cast c.ed_pos
  have hN : (0 : ℤ) < (c.N : ℤ) * c.ed := by
    have := c.three_le_N
    have : (0 : ℤ) < c.N := by omega
    positivity
  unfold addAssign
  simp only [huz, hvz, Bool.false_eq_true, if_false, false_or, hu.full, hv.full, Nat.min_self]
  split
  · next h => exact ⟨hu, rfl, huz, le_refl _, by omega, by linarith [abs_nonneg (v.val c)],
      by have := small_lt_ulp hv.toWF (u := u) (by omega); linarith⟩
  · next h =>
    split
    · next h2 => exact ⟨hv, hs.symm, hvz, by omega, le_refl _, by linarith [abs_nonneg (u.val c)],
        by have := small_lt_ulp hu.toWF (u := v) (by omega); linarith⟩
    · next h2 =>
      rw [ofs_eq hk]
      have hlt : k.natAbs < c.N := by
        by_contra hh
        have h1 : (c.N : ℤ) ≤ |k| := by rw [Int.abs_eq_natAbs]; omega
        have h2' : (c.N : ℤ) * c.ed ≤ |k| * c.ed := mul_le_mul_of_nonneg_right h1 hed.le
        have h3 : |u.exp - v.exp| = |k| * c.ed := by rw [hk, abs_mul, abs_of_pos hed]
        rcases abs_cases (u.exp - v.exp) with h4 | h4 <;> omega
      obtain ⟨q1, q2, q3, q4, q5, q6, q7, q8⟩ := addSame_full hu.toWF hv.toWF huz hvz hk hlt
      exact ⟨⟨q1, by rw [q3, hu.full]⟩, q2, q4, q5, q6, q7, q8⟩

/-- Opposite signs, full precision: `S` the exact sum. -/
theorem addAssign_opp {c : Cfg} {u v : DW} (hu : Full c u) (hv : Full c v) (huz : u.isZero = false)
    (hvz : v.isZero = false) (hs : u.neg ≠ v.neg) :
    Full c (addAssign c u v) ∧
    (0 ≤ u.val c + v.val c → u.val c + v.val c ≤ (addAssign c u v).val c ∧
      (addAssign c u v).val c < u.val c + v.val c + max (u.ulp c) (v.ulp c)) ∧
    (u.val c + v.val c ≤ 0 → (addAssign c u v).val c ≤ u.val c + v.val c ∧
      u.val c + v.val c - max (u.ulp c) (v.ulp c) < (addAssign c u v).val c) ∧
    (∃ m : ℤ, (addAssign c u v).val c = m * max (u.ulp c) (v.ulp c)) ∧
    (addAssign c u v).exp ≤ max u.exp (max v.exp 0) := by
  obtain ⟨k, hk⟩ := exp_sub_dvd hu.toWF hv.toWF
  have hed : (0 : ℤ) < c.ed := by exact_mod_cast c.ed_pos
  have h3N := c.three_le_N
  have hN : (0 : ℤ) < (c.N : ℤ) * c.ed := by
    have : (0 : ℤ) < c.N := by omega
    positivity
  have hup := u.ulp_pos c
  have hvp := v.ulp_pos c
  -- a signed version: with `s` the sign of the larger operand `a`, `b` the other
  have fin : ∀ (a b r S M : ℚ) (s : Bool), b ≤ a → 0 ≤ b → S = (if s then -1 else 1) * (a - b) → 0 < M →
      a - b ≤ r → r < a - b + M → (a = b → r = 0) →
      (0 ≤ S → S ≤ (if s then -1 else 1) * r ∧ (if s then -1 else 1) * r < S + M) ∧
      (S ≤ 0 → (if s then -1 else 1) * r ≤ S ∧ S - M < (if s then -1 else 1) * r) := by
    intro a b r S M s hab hb hS hM h1 h2 h0
    cases s <;> simp only [Bool.false_eq_true, if_true, if_false] at hS ⊢
    · refine ⟨fun _ => ⟨by linarith, by linarith⟩, fun h => ?_⟩
      have : a = b := by linarith
      have := h0 this
      constructor <;> linarith
    · refine ⟨fun h => ?_, fun _ => ⟨by linarith, by linarith⟩⟩
      have : a = b := by linarith
      have := h0 this
      constructor <;> linarith
  have hsgn : ∀ x : DW, x.val c = (if x.neg then -1 else 1) * |x.val c| := by
    intro x
    rw [abs_val, val_eq, sgn]; ring
  have hsu : u.val c + v.val c = (if u.neg then -1 else 1) * (|u.val c| - |v.val c|) := by
    rw [hsgn u, hsgn v, abs_mul, abs_mul, abs_abs, abs_abs]
    cases h1 : u.neg <;> cases h2 : v.neg <;> rw [h1, h2] at hs <;> simp at hs ⊢ <;> ring
  have hsv : u.val c + v.val c = (if v.neg then -1 else 1) * (|v.val c| - |u.val c|) := by
    rw [hsgn u, hsgn v, abs_mul, abs_mul, abs_abs, abs_abs]
    cases h1 : u.neg <;> cases h2 : v.neg <;> rw [h1, h2] at hs <;> simp at hs ⊢ <;> ring
  unfold addAssign
  simp only [huz, hvz, Bool.false_eq_true, if_false, false_or, hu.full, hv.full, Nat.min_self]
  split
  · next h =>
    have hlt := small_lt_ulp hv.toWF (u := u) (by omega)
    have hM : max (u.ulp c) (v.ulp c) = u.ulp c := max_ulp (by omega)
    rw [hM]
    have hvu : |v.val c| ≤ |u.val c| := (abs_lt_of_exp_lt hv.toWF hu.toWF huz (by omega)).le
    have hne := (abs_lt_of_exp_lt hv.toWF hu.toWF huz (by omega)).ne'
    obtain ⟨f1, f2⟩ := fin _ _ (|u.val c|) _ _ u.neg hvu (abs_nonneg _) hsu hup (by linarith [abs_nonneg (v.val c)])
      (by linarith) (fun h => absurd h hne)
    rw [← hsgn u] at f1 f2
    exact ⟨hu, f1, f2, val_mul_ulp c u, by omega⟩
  · next h =>
    split
    · next h2 =>
      have hlt := small_lt_ulp hu.toWF (u := v) (by omega)
      have hM : max (u.ulp c) (v.ulp c) = v.ulp c := by rw [max_comm]; exact max_ulp (by omega)
      rw [hM]
      have huv : |u.val c| ≤ |v.val c| := (abs_lt_of_exp_lt hu.toWF hv.toWF hvz (by omega)).le
      have hne := (abs_lt_of_exp_lt hu.toWF hv.toWF hvz (by omega)).ne'
      obtain ⟨f1, f2⟩ := fin _ _ (|v.val c|) _ _ v.neg huv (abs_nonneg _) hsv hvp (by linarith [abs_nonneg (u.val c)])
        (by linarith) (fun h => absurd h hne)
      rw [← hsgn v] at f1 f2
      exact ⟨hv, f1, f2, val_mul_ulp c v, by omega⟩
    · next h2 =>
      rw [ofs_eq hk]
      have hlt : k.natAbs < c.N := by
        by_contra hh
        have h1 : (c.N : ℤ) ≤ |k| := by rw [Int.abs_eq_natAbs]; omega
        have h2' : (c.N : ℤ) * c.ed ≤ |k| * c.ed := mul_le_mul_of_nonneg_right h1 hed.le
        have h3 : |u.exp - v.exp| = |k| * c.ed := by rw [hk, abs_mul, abs_of_pos hed]
        rcases abs_cases (u.exp - v.exp) with h4 | h4 <;> omega
      have main : ∀ (a b w : DW) (j : Nat), Full c a → Full c b → a.isZero = false → Pre c w →
          a.exp - b.exp = (j : ℤ) * c.ed → w.exp = a.exp → w.neg = a.neg → w.prec = c.N →
          b.mantp c c.N / c.B ^ j ≤ a.mantp c c.N → w.mantp c c.N = a.mantp c c.N - b.mantp c c.N / c.B ^ j →
          u.val c + v.val c = (if a.neg then -1 else 1) * (|a.val c| - |b.val c|) →
          Full c (justify c c.N w) ∧
          (0 ≤ u.val c + v.val c → u.val c + v.val c ≤ (justify c c.N w).val c ∧
            (justify c c.N w).val c < u.val c + v.val c + max (a.ulp c) (b.ulp c)) ∧
          (u.val c + v.val c ≤ 0 → (justify c c.N w).val c ≤ u.val c + v.val c ∧
            u.val c + v.val c - max (a.ulp c) (b.ulp c) < (justify c c.N w).val c) ∧
          (∃ m : ℤ, (justify c c.N w).val c = m * max (a.ulp c) (b.ulp c)) ∧
          (justify c c.N w).exp ≤ max a.exp 0 := by
        intro a b w j ha hb haz hpre hj hwe hwn hwp hle hwm hS
        have hba : b.exp ≤ a.exp := by
          have : (0 : ℤ) ≤ (j : ℤ) * c.ed := by positivity
          omega
        rw [max_ulp hba]
        obtain ⟨b1, b2⟩ := aligned_diff (p := c.N) hj hle
        rw [absp_N ha.len, absp_N hb.len, lexpp_N] at b1 b2
        have hbla : |b.val c| ≤ |a.val c| := by
          rcases Nat.eq_zero_or_pos j with h | h
          · subst h
            rw [pow_zero, Nat.div_one, mantp_N ha.len, mantp_N hb.len] at hle
            have he : b.exp = a.exp := by simp at hj; omega
            rw [abs_val, abs_val]
            have : b.lexp c = a.lexp c := by unfold lexp; rw [he]
            rw [this]
            have : (b.mant c : ℚ) ≤ a.mant c := by exact_mod_cast hle
            exact mul_le_mul_of_nonneg_right this (p10_pos _).le
          · refine (abs_lt_of_exp_lt hb.toWF ha.toWF haz ?_).le
            have : (0 : ℤ) < (j : ℤ) * c.ed := by positivity
            omega
        have hwl : w.lexp c = a.lexp c := by unfold lexp; rw [hwe]
        have hwabs : |w.val c| = ((a.mantp c c.N - b.mantp c c.N / c.B ^ j : Nat) : ℚ) * 10 ^ a.lexp c := by
          rw [abs_val, ← mantp_N hpre.len, hwm, hwl]
        rw [← hwabs, ← ulp_eq] at b2
        rw [← hwabs] at b1
        have hwm0 : |a.val c| = |b.val c| → |w.val c| = 0 := by
          intro h
          rw [h, sub_self] at b1 b2
          rcases Nat.eq_zero_or_pos j with hj0 | hj0
          · subst hj0
            have he : b.exp = a.exp := by simp at hj; omega
            have hl : b.lexp c = a.lexp c := by unfold lexp; rw [he]
            rw [abs_val, abs_val, hl] at h
            have h' := mul_right_cancel₀ (p10_pos (a.lexp c)).ne' h
            have h'' : a.mant c = b.mant c := by exact_mod_cast h'
            rw [hwabs, mantp_N ha.len, mantp_N hb.len, h'', pow_zero, Nat.div_one]
            simp
          · exfalso
            have : b.exp < a.exp := by
              have : (0 : ℤ) < (j : ℤ) * c.ed := by positivity
              omega
            exact (abs_lt_of_exp_lt hb.toWF ha.toWF haz this).ne' h
        obtain ⟨f1, f2⟩ := fin _ _ (|w.val c|) _ _ a.neg hbla (abs_nonneg _) hS (a.ulp_pos c) b1 b2 hwm0
        rw [← hwn, ← hsgn w] at f1 f2
        obtain ⟨m, hm⟩ := val_mul_ulp c w
        have hwu : w.ulp c = a.ulp c := by rw [ulp_eq, ulp_eq, hwl]
        by_cases hz : w.mantp c c.N = 0
        · have hw0 : w.val c = 0 := by
            rw [← abs_eq_zero, abs_val, ← mantp_N hpre.len, hz]; simp
          have hall : ∀ d ∈ w.data, d = 0 := by
            rw [mantp_N hpre.len] at hz
            exact (limbsVal_zero_iff c.B_pos).mp hz
          rw [justify_zero hall, zero_val]
          rw [hw0] at f1 f2
          exact ⟨zero_WF c, f1, f2, ⟨0, by simp⟩, by show (0:ℤ) ≤ _; exact le_max_right _ _⟩
        · obtain ⟨q1, q2, q3, q4, q5, q6⟩ := justify_spec hpre (le_refl _) hz
          rw [q4]
          exact ⟨⟨q1, by rw [q3, hwp]⟩, f1, f2, ⟨m, by rw [hm, hwu]⟩, le_trans q5 (by rw [hwe]; exact le_max_left _ _)⟩
      rcases addOpp_cases hu.toWF hv.toWF huz hvz (p := c.N) (by omega) (le_refl _) hk hlt with
        ⟨w, j, e1, e2, -, e4, e5, e6, e7, e8, e9, -⟩ | ⟨w, j, e1, e2, -, e4, e5, e6, e7, e8, e9, -⟩
      · rw [e1]
        obtain ⟨m1, m2, m3, m4, m5⟩ := main u v w j hu hv huz e2 e4 e5 e6 (by rw [e7, hu.full]) e8.le e9 hsu
        exact ⟨m1, m2, m3, m4, by omega⟩
      · rw [e1]
        obtain ⟨m1, m2, m3, m4, m5⟩ := main v u w j hv hu hvz e2 e4 e5 e6 (by rw [e7, hu.full]) e8 e9 hsv
        rw [max_comm (v.ulp c)] at m2 m3 m4
        exact ⟨m1, m2, m3, m4, by omega⟩

end WD
