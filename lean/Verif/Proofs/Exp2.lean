import Verif.Model.Exp2
import Verif.Proofs.Sqrt
import Verif.Proofs.ExpMain
/-
  The Newton iteration of `exp` above 2000 digits: one round, and quadratic convergence down to the working precision.
-/
namespace WD
open DW

theorem eta_two {c : Cfg} {q : ℕ} (h : 2 ≤ q) : eta c q ≤ 1 / 100 := by
  refine (eta_anti h).trans ?_
  unfold eta
  have h2 := two_le_ed c
  have : (10 : ℚ) ^ (-((c.ed : ℤ) * (((2 : ℕ) : ℤ) - 1))) ≤ 10 ^ (-2 : ℤ) := zpow_le_zpow_right₀ (by norm_num) (by push_cast; omega)
  refine this.trans (by norm_num)

theorem wf_exp_mid {c : Cfg} {r : DW} (hr : WF c r) (h1 : 1 / 100 < |r.val c|) (h2 : |r.val c| < 10) : -(c.ed : ℤ) ≤ r.exp ∧ r.exp ≤ 0 := by
  have hz := isZero_false_of_val hr (by rintro h; rw [h] at h1; norm_num at h1)
  have a := hr.abs_ge hz
  have b := hr.abs_lt
  have hed := two_le_ed c
  have a' : (10 : ℚ) ^ r.exp < 10 ^ (1 : ℤ) := lt_of_le_of_lt a (by rw [zpow_one]; exact h2)
  have b' : (10 : ℚ) ^ (-2 : ℤ) < 10 ^ (r.exp + (c.ed : ℤ)) := lt_trans (by norm_num; linarith) b
  rw [zpow_lt_zpow_iff_right₀ (by norm_num)] at a' b'
  obtain ⟨k, hk⟩ := hr.dvd
  have hedp := c.ed_pos
  refine ⟨?_, by omega⟩
  have : -2 < k := by
    by_contra hc
    have : (c.ed : ℤ) * k ≤ c.ed * (-2) := mul_le_mul_of_nonneg_left (by omega) (by positivity)
    omega
  have : (c.ed : ℤ) * (-1) ≤ c.ed * k := mul_le_mul_of_nonneg_left (by omega) (by positivity)
  omega

/-- The factor of one round. -/
theorem exp2_factor {c : Cfg} {x l : DW} {q : ℕ} (hq2 : 2 ≤ q) (hx : WF c x) (hxp : x.prec = q) (hx0 : 0 ≤ x.val c) (hx1 : x.val c ≤ 3 / 4)
    (hl : WF c l) (hlp : q ≤ l.prec) (hl0 : 0 ≤ l.val c) (hl1 : l.val c ≤ 4 / 5) :
    let w := addAssign c (addAssign c l.negate x) (one c)
    Posi c w ∧ q ≤ w.prec ∧ |w.val c - (1 + x.val c - l.val c)| ≤ 6 * eta c q := by
  intro w
  have hη0 := eta_pos c q
  have hη2 := eta_two (c := c) hq2
  have hqN : q ≤ c.N := by rw [← hxp]; exact hx.precN
  have hone := one_full c
  have hov : (one c).val c = 1 := one_val c
  have hoz : (one c).isZero = false := isZero_false_of_val hone.toWF (by rw [hov]; norm_num)
  -- the difference
  have hA : (WF c (addAssign c l.negate x) ∧ (addAssign c l.negate x).isZero = false ∧ q ≤ (addAssign c l.negate x).prec ∧
      |(addAssign c l.negate x).val c - (x.val c - l.val c)| ≤ 3 * (4 / 5 * eta c q)) ∨
      ((addAssign c l.negate x).isZero = true ∧ |x.val c - l.val c| ≤ 3 * (4 / 5 * eta c q)) := by
    cases hlz : l.isZero
    · have hnv := negate_val c hl
      have hlv : l.val c ≠ 0 := by
        intro h; rw [hl.isZero_iff.mpr h] at hlz; simp at hlz
      have hnw : WF c l.negate := by
        unfold negate; rw [hlz]
        exact ⟨hl.len, hl.valid, hl.dvd, hl.prec2, hl.precN, hl.lead⟩
      have hnp : l.negate.prec = l.prec := by unfold negate; split <;> rfl
      have hnz : l.negate.isZero = false := isZero_false_of_val hnw (by rw [hnv]; exact neg_ne_zero.mpr hlv)
      cases hxz : x.isZero
      · have hxv : x.val c ≠ 0 := by
          intro h; rw [hx.isZero_iff.mpr h] at hxz; simp at hxz
        have hxn := neg_of_pos (lt_of_le_of_ne hx0 (Ne.symm hxv))
        have hln := neg_of_pos (lt_of_le_of_ne hl0 (Ne.symm hlv))
        have hlnn : l.negate.neg = true := by unfold negate; rw [hlz, hln]; rfl
        have := add_near hnw hx hnz hxz (p := q) (by rw [hnp, hxp]; omega) (by rw [hlnn, hxn]; simp)
        have hm : max |l.negate.val c| |x.val c| ≤ 4 / 5 := by
          rw [hnv, abs_neg, abs_of_nonneg hl0, abs_of_nonneg hx0]; exact max_le hl1 (by linarith)
        have he : 3 * (max |l.negate.val c| |x.val c| * eta c q) ≤ 3 * (4 / 5 * eta c q) :=
          mul_le_mul_of_nonneg_left (mul_le_mul_of_nonneg_right hm hη0.le) (by norm_num)
        have hs : l.negate.val c + x.val c = x.val c - l.val c := by rw [hnv]; ring
        rw [hs] at this
        rcases this with ⟨a, b, d, -, e⟩ | ⟨a, -, -, -, e⟩
        · exact Or.inl ⟨a, b, d, e.trans he⟩
        · exact Or.inr ⟨a, e.trans he⟩
      · have e : addAssign c l.negate x = l.negate := by
          unfold addAssign; simp only [hnz, hxz, Bool.false_eq_true, if_false, true_or, if_true]
        rw [e]
        left
        refine ⟨hnw, hnz, by rw [hnp]; exact hlp, ?_⟩
        rw [hnv, hx.isZero_iff.mp hxz]
        simp; positivity
    · have e0 : l.negate = l := by unfold negate; rw [hlz]; rfl
      have e : addAssign c l.negate x = x := by
        unfold addAssign; rw [e0, hlz]; rfl
      rw [e, hl.isZero_iff.mp hlz, sub_zero]
      cases hxz : x.isZero
      · left
        refine ⟨hx, rfl, by omega, ?_⟩
        rw [sub_self, abs_zero]; positivity
      · right
        rw [hx.isZero_iff.mp hxz, abs_zero]
        exact ⟨rfl, by positivity⟩
  set A := addAssign c l.negate x with hAd
  have hw : w = addAssign c A (one c) := rfl
  rcases hA with ⟨a1, a2, a3, a4⟩ | ⟨a1, a2⟩
  · obtain ⟨a5, a6⟩ := abs_le.mp a4
    have hA1 : |A.val c| ≤ 9 / 10 := by rw [abs_le]; constructor <;> linarith
    have hAN := a1.precN
    have := add_near a1 hone.toWF a2 hoz (p := A.prec) (by rw [hone.full]; omega) (by
      intro _ _
      rw [hov, abs_one]
      have : (10 : ℚ) ^ (1 : ℤ) ≤ 10 ^ (max A.exp (one c).exp + (c.ed : ℤ)) := by
        apply zpow_le_zpow_right₀ (by norm_num)
        have h2 := two_le_ed c
        have : (one c).exp = 0 := rfl
        omega
      rw [zpow_one] at this
      linarith)
    rw [← hw, hov] at this
    have hm : max |A.val c| |(1 : ℚ)| ≤ 1 := by rw [abs_one]; exact max_le (by linarith) le_rfl
    have he : 3 * (max |A.val c| |(1 : ℚ)| * eta c A.prec) ≤ 3 * eta c q := by
      have h1 := eta_anti (c := c) a3
      have h2 := eta_pos c A.prec
      have := mul_le_mul_of_nonneg_right hm h2.le
      linarith
    rcases this with ⟨b1, b2, b3, -, b4⟩ | ⟨-, -, -, -, b4⟩
    · obtain ⟨b5, b6⟩ := abs_le.mp (b4.trans he)
      refine ⟨posi_of_val b1 (by linarith), by omega, ?_⟩
      rw [abs_le]; constructor <;> linarith
    · obtain ⟨b5, b6⟩ := abs_le.mp (b4.trans he)
      linarith
  · have e : w = one c := by rw [hw]; unfold addAssign; rw [a1]; rfl
    rw [e, hov]
    refine ⟨posi_of_val hone.toWF (by rw [hov]; norm_num), by rw [hone.full]; exact hqN, ?_⟩
    rw [show (1 : ℚ) - (1 + x.val c - l.val c) = -(x.val c - l.val c) by ring, abs_neg]
    linarith

/-- The numerics of one round. -/
theorem exp2_conv {y y' W L x δ e η : ℝ} (hy : 0 < y) (hδ : |Real.log y - x| ≤ δ) (hδ1 : δ ≤ 1 / 100) (he : |L - Real.log y| ≤ e) (he1 : e ≤ 1 / 1000)
    (hη0 : 0 ≤ η) (hη : η ≤ 1 / 10 ^ 4) (hW : |W - (1 + x - L)| ≤ 6 * η) (hm : |y' - y * W| ≤ 3 * η * (y * W)) :
    0 < y' ∧ |Real.log y' - x| ≤ 55 / 100 * δ ^ 2 + 103 / 100 * e + 10 * η := by
  obtain ⟨d1, d2⟩ := abs_le.mp hδ
  obtain ⟨l1, l2⟩ := abs_le.mp he
  obtain ⟨w1, w2⟩ := abs_le.mp hW
  have he0 : 0 ≤ e := (abs_nonneg _).trans he
  have hδ0 : 0 ≤ δ := (abs_nonneg _).trans hδ
  obtain ⟨s, hs⟩ : ∃ s, s = W - 1 := ⟨_, rfl⟩
  have hW1 : W = 1 + s := by rw [hs]; ring
  have hsb : |s| ≤ δ + e + 6 * η := by rw [hs, abs_le]; constructor <;> linarith
  have hs1 : |s| ≤ 1 / 50 := by linarith
  obtain ⟨s1, s2⟩ := abs_le.mp hs1
  have hWp : 0 < W := by rw [hW1]; linarith
  obtain ⟨h1, h2⟩ := log_shift (a := y') (b := y * W) (t := 3 * η) (by positivity) (by linarith) hm
  refine ⟨h1, ?_⟩
  rw [Real.log_mul hy.ne' hWp.ne', hW1] at h2
  -- log (1 + s)
  have hp : 0 < 1 + s := by linarith
  have u := Real.log_le_sub_one_of_pos hp
  have lb : s - 55 / 100 * s ^ 2 ≤ Real.log (1 + s) := by
    have := Real.abs_log_sub_add_sum_range_le (x := -s) (by rw [abs_neg]; linarith) 2
    rw [Finset.sum_range_succ, Finset.sum_range_succ, Finset.sum_range_zero, abs_neg] at this
    norm_num at this
    have h3 : |s| ^ 3 / (1 - |s|) ≤ 3 / 100 * s ^ 2 := by
      rw [div_le_iff₀ (by linarith)]
      have : |s| ^ 3 = |s| * s ^ 2 := by rw [pow_succ, sq_abs]; ring
      rw [this]
      nlinarith [sq_nonneg s, abs_nonneg s]
    have := (abs_le.mp (this.trans h3)).1
    nlinarith
  have hsq : s ^ 2 ≤ δ ^ 2 + 3 / 100 * (e + 6 * η) := by
    rw [← sq_abs]
    have := pow_le_pow_left₀ (abs_nonneg s) hsb 2
    nlinarith
  obtain ⟨g1, g2⟩ := abs_le.mp h2
  rw [abs_le]
  constructor <;> nlinarith

theorem exp2_close {E m ε δ e η : ℝ} (hE0 : 0 < E) (hE : E ≤ 1 / 10 ^ 5) (hm0 : 0 < m) (hm : m ≤ 1 / 10 ^ 8) (hε0 : 0 ≤ ε) (hε : ε ≤ 1 / 10 ^ 4)
    (hδ : δ = 1 / 2 * E + 2 * ε + 30 * m) (he : e = ε + 10 * η) (hη : η ≤ 1 / 100 * E ^ 2 ∨ η = m) :
    55 / 100 * δ ^ 2 + 103 / 100 * e + 10 * η ≤ 1 / 2 * E ^ 2 + 2 * ε + 30 * m := by
  have h1 : δ ^ 2 = 1 / 4 * E ^ 2 + (2 * ε + 30 * m) * (E + (2 * ε + 30 * m)) := by rw [hδ]; ring
  have h2 : (2 * ε + 30 * m) * (E + (2 * ε + 30 * m)) ≤ (2 * ε + 30 * m) * (1 / 1000) :=
    mul_le_mul_of_nonneg_left (by norm_num at hE hm hε ⊢; linarith) (by positivity)
  have h3 : 0 ≤ E ^ 2 := sq_nonneg _
  rw [h1, he]
  rcases hη with h | h <;> linarith

/-- The Newton loop of `exp`: quadratic convergence of the logarithm. -/
theorem exp2Loop_spec {c : Cfg} {lg : DW → Option DW} (hok : MulOkAll c) (hM : 2 * (c.ed : ℤ) < c.maxExp) {D0 limit : ℕ} (hD0 : 5 ≤ D0) {ε : ℝ} (hε0 : 0 ≤ ε)
    (hε : ε ≤ 1 / 10 ^ 4) (hm : eta c c.N ≤ 1 / 10 ^ 8) : ∀ (n k : ℕ) (x y : DW), limit ≤ D0 * 2 ^ k + n → WF c x → 0 ≤ x.val c → x.val c ≤ 3 / 4 → Posi c y →
    |Real.log (y.val c) - x.val c| ≤ 1 / 2 * (1 / 10 ^ (D0 * 2 ^ k)) + 2 * ε + 30 * (eta c c.N : ℝ) →
    (∀ a ∈ exp2Args c lg limit (D0 * 2 ^ k) y x, ∃ r, lg a = some r ∧ WF c r ∧ a.prec ≤ r.prec ∧ 0 ≤ r.val c ∧
      |(r.val c : ℝ) - Real.log (a.val c)| ≤ ε + 10 * (eta c a.prec : ℝ)) →
    ∃ r, exp2Loop c lg limit (D0 * 2 ^ k) y x = some r ∧ Posi c r ∧ ∃ k' : ℕ, limit ≤ D0 * 2 ^ k' ∧
      |Real.log (r.val c) - x.val c| ≤ 1 / 2 * (1 / 10 ^ (D0 * 2 ^ k')) + 2 * ε + 30 * (eta c c.N : ℝ) := by
  intro n
  induction n with
  | zero =>
    intro k x y hl _ _ _ hy h _
    exact ⟨y, by rw [exp2Loop, dif_neg (by omega)], hy, k, hl, h⟩
  | succ n ih =>
    intro k x y hl hx hx0 hx1 hy h hlg
    by_cases hc : D0 * 2 ^ k < limit
    swap
    · exact ⟨y, by rw [exp2Loop, dif_neg (by omega)], hy, k, by omega, h⟩
    have hDpos : D0 ≤ D0 * 2 ^ k := Nat.le_mul_of_pos_right _ (by positivity)
    obtain ⟨q, q2, qN, hq, hqη⟩ := round_prec2 (c := c) (D0 * 2 ^ k)
    have hcast : ((min (c.ed + 1) 9 : ℕ) : ℤ) = min ((c.ed : ℤ) + 1) 9 := by push_cast; rfl
    rw [← hcast] at hq
    rw [exp2Args, dif_pos ⟨hc, by omega⟩] at hlg
    simp only [hq] at hlg
    rw [exp2Loop, dif_pos ⟨hc, by omega⟩]
    obtain ⟨E, hE⟩ : ∃ E : ℝ, E = 1 / 10 ^ (D0 * 2 ^ k) := ⟨_, rfl⟩
    have hE0 : 0 < E := by rw [hE]; positivity
    have hE1 : E ≤ 1 / 10 ^ 5 := by
      rw [hE]
      apply one_div_le_one_div_of_le (by positivity)
      exact pow_le_pow_right₀ (by norm_num) (by omega)
    have hE2 : 1 / (10 : ℝ) ^ (D0 * 2 ^ (k + 1)) = E ^ 2 := by
      rw [hE, div_pow, one_pow, ← pow_mul]; congr 2; ring
    have hmR : (eta c c.N : ℝ) ≤ 1 / 10 ^ 8 := by
      have := (Rat.cast_le (K := ℝ)).mpr hm; push_cast at this; exact this
    have hm0 : (0 : ℝ) < eta c c.N := by exact_mod_cast eta_pos c c.N
    have hη0 : (0 : ℝ) < eta c q := by exact_mod_cast eta_pos c q
    have hη : (eta c q : ℝ) ≤ 1 / 100 * E ^ 2 ∨ (eta c q : ℝ) = eta c c.N := by
      rcases Nat.lt_or_ge q c.N with hlt | hge
      · left
        have h1 := (Rat.cast_le (K := ℝ)).mpr (hqη hlt).1
        push_cast at h1
        have e2 : (10 : ℝ) ^ (-(2 * ((D0 : ℤ) * 2 ^ k) + 2)) = 1 / 100 * E ^ 2 := by
          have e3 : E ^ 2 = (10 : ℝ) ^ (-(2 * ((D0 : ℤ) * 2 ^ k))) := by
            rw [hE, div_pow, one_pow, ← pow_mul, one_div, ← zpow_natCast, ← zpow_neg]; congr 1; push_cast; ring
          rw [neg_add, zpow_add₀ (by norm_num), e3, mul_comm]
          norm_num
        rw [e2] at h1; exact h1
      · right; rw [show q = c.N by omega]
    have hη1 : (eta c q : ℝ) ≤ 1 / 10 ^ 8 := by
      rcases hη with h1 | h1
      · have : E ^ 2 ≤ 1 / 10 ^ 5 * E := by rw [pow_two]; exact mul_le_mul_of_nonneg_right hE1 hE0.le
        norm_num at this hE1 ⊢
        linarith
      · rw [h1]; exact hmR
    rw [← hE] at h
    obtain ⟨l, l1, l2, l3, l4, l5⟩ := hlg _ (List.mem_cons_self ..)
    have hyq := hy.setPrec q2 qN
    have hyv : ({ y with prec := q } : DW).val c = y.val c := rfl
    have hxv : ({ x with prec := q } : DW).val c = x.val c := rfl
    rw [hyv] at l5
    change q ≤ l.prec at l3
    change _ ≤ ε + 10 * (eta c q : ℝ) at l5
    have hxq : WF c { x with prec := q } := ⟨hx.len, hx.valid, hx.dvd, q2, qN, hx.lead⟩
    have hyp : (0 : ℝ) < y.val c := by exact_mod_cast hy.val_pos
    obtain ⟨g1, g2⟩ := abs_le.mp h
    obtain ⟨m1, m2⟩ := abs_le.mp l5
    have hx1R : (x.val c : ℝ) ≤ 3 / 4 := by
      have := (Rat.cast_le (K := ℝ)).mpr hx1; push_cast at this; exact this
    have hx0R : (0 : ℝ) ≤ x.val c := by exact_mod_cast hx0
    have hl1 : l.val c ≤ 4 / 5 := by
      have : (l.val c : ℝ) ≤ ((4 / 5 : ℚ) : ℝ) := by push_cast; norm_num at hE1 hmR hη1 hε ⊢; linarith
      exact_mod_cast this
    obtain ⟨w1, w2, w3⟩ := exp2_factor q2 hxq rfl (by rw [hxv]; exact hx0) (by rw [hxv]; exact hx1) l2 l3 l4 hl1
    rw [hxv] at w3
    obtain ⟨s, hs⟩ : ∃ s, s = mulAssign c { y with prec := q } (addAssign c (addAssign c l.negate { x with prec := q }) (one c)) := ⟨_, rfl⟩
    have hstep : exp2Step c lg (D0 * 2 ^ k) y x = some (s, { x with prec := q }) := by
      unfold exp2Step
      simp only [hq, l1, Option.map_some, hs]
    set w := addAssign c (addAssign c l.negate { x with prec := q }) (one c) with hwd
    -- ranges
    have hylo : (1 / 10 : ℚ) < y.val c := by
      have h1 := Real.add_one_le_exp (Real.log (y.val c : ℝ))
      rw [Real.exp_log hyp] at h1
      have : ((1 / 10 : ℚ) : ℝ) < y.val c := by push_cast; norm_num at hE1 hmR hε; linarith
      exact_mod_cast this
    have hyhi : y.val c < 10 := by
      have : (y.val c : ℝ) < 10 := by
        rw [← Real.exp_log hyp]
        refine lt_of_lt_of_le ((Real.exp_lt_exp (y := 23 / 10)).mpr ?_) exp23
        norm_num at hE1 hmR hε; linarith
      exact_mod_cast this
    obtain ⟨w4, w5⟩ := abs_le.mp w3
    have hη2 := eta_two (c := c) q2
    have hwv : 0 < w.val c := w1.val_pos
    obtain ⟨y1, y2⟩ := wf_exp_mid hyq.toWF (by rw [hyv, abs_of_pos (by linarith)]; linarith) (by rw [hyv, abs_of_pos (by linarith)]; linarith)
    obtain ⟨x1, x2⟩ := wf_exp_mid w1.toWF (by rw [abs_of_pos hwv]; linarith) (by rw [abs_of_pos hwv]; linarith)
    obtain ⟨r1, r2, r3, r4, r5⟩ := mul_near hyq.toWF w1.toWF hyq.nz w1.nz (p := q) (by show q = min q w.prec; omega) (hok.ok (by omega) qN) (by omega) (by omega)
    rw [← hs] at r1 r2 r3 r4 r5
    rw [hyv, abs_of_pos hy.val_pos, abs_of_pos hwv] at r5
    have hsP : Posi c s := ⟨r1, r2, by rw [r3, hyq.nn, w1.nn]; rfl⟩
    have r5' := (Rat.cast_le (K := ℝ)).mpr r5
    have w3' := (Rat.cast_le (K := ℝ)).mpr w3
    push_cast at r5' w3'
    obtain ⟨-, z2⟩ := exp2_conv hyp h (by norm_num at hE1 hmR hε ⊢; linarith) l5 (by norm_num at hη1 hε ⊢; linarith) hη0.le (by norm_num at hη1 ⊢; linarith) w3' r5'
    have z3 := z2.trans (exp2_close hE0 hE1 hm0 hmR hε0 hε rfl rfl hη)
    rw [hstep] at hlg ⊢
    simp only at hlg ⊢
    rw [show D0 * 2 ^ k * 2 = D0 * 2 ^ (k + 1) by rw [pow_succ]; ring] at hlg ⊢
    obtain ⟨r, a1, a2, a3⟩ := ih (k + 1) { x with prec := q } s (by rw [pow_succ, ← mul_assoc]; omega) hxq (by rw [hxv]; exact hx0) (by rw [hxv]; exact hx1) hsP
      (by rw [hxv, hE2]; exact z3) (fun a ha => hlg a (List.mem_cons_of_mem _ ha))
    exact ⟨r, a1, a2, a3⟩

end WD
