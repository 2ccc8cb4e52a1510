import Verif.Proofs.Near
import Verif.Proofs.SqrtNum
import Verif.Model.Sqrt
/-
  The coupled Newton iteration of `calculate_sqrt`.
-/
namespace WD
open DW

/-- The working precision of a round; the digit count asked for is odd, so one more digit is available. -/
theorem round_prec2 {c : Cfg} (D : ℕ) : ∃ q : ℕ, 2 ≤ q ∧ q ≤ c.N ∧
    (∀ x : DW, precision c x ((D : ℤ) * 2 + min ((c.ed : ℤ) + 1) 9) = { x with prec := q }) ∧
    (q < c.N → eta c q ≤ (10 : ℚ) ^ (-(2 * (D : ℤ) + 2)) ∧ 2 * (D : ℤ) + c.ed + 1 ≤ c.ed * ((c.N : ℤ) - 1)) := by
  have h3 := c.three_le_N
  have hed := c.ed_pos
  have hedc : c.ed = 2 ∨ c.ed = 4 ∨ c.ed = 8 := by unfold Cfg.ed; cases c.L <;> decide
  set np : ℤ := (D : ℤ) * 2 + min ((c.ed : ℤ) + 1) 9 with hnp
  have hnp0 : 0 ≤ np := by omega
  set need : ℤ := np.tdiv c.ed + (if np.tmod c.ed ≠ 0 then 1 else 0) with hneed
  have hneed2 : np ≤ c.ed * need := by
    have h1 := Int.mul_tdiv_add_tmod np c.ed
    have h2 : np.tmod c.ed < c.ed := Int.tmod_lt_of_pos _ (by exact_mod_cast hed)
    have h4 : 0 ≤ np.tmod c.ed := Int.tmod_nonneg _ hnp0
    rw [hneed]
    split
    · rw [mul_add, mul_one]; linarith
    · next h => rw [add_zero]; push Not at h; linarith
  have hneed3 : np + 1 ≤ c.ed * need := by
    rcases hedc with h | h | h <;> rw [h] at hneed2 hnp ⊢ <;> push_cast at * <;> omega
  refine ⟨(min (c.N : ℤ) (max need 2)).toNat, by omega, by omega, fun x => rfl, ?_⟩
  set q := (min (c.N : ℤ) (max need 2)).toNat with hq
  intro hqN
  have hqn : need ≤ q := by omega
  have h6 : min ((c.ed : ℤ) + 1) 9 = c.ed + 1 := by omega
  rw [h6] at hnp
  refine ⟨?_, ?_⟩
  swap
  · have h5 : (c.ed : ℤ) * need ≤ c.ed * ((c.N : ℤ) - 1) := mul_le_mul_of_nonneg_left (by omega) (by positivity)
    linarith
  unfold eta
  apply zpow_le_zpow_right₀ (by norm_num)
  have h5 : (c.ed : ℤ) * need ≤ c.ed * q := mul_le_mul_of_nonneg_left hqn (by positivity)
  rw [mul_sub]
  linarith

/-- `X` and `4X` keep a relative distance `t` from the even powers of the limb radix. -/
def OffSq (c : Cfg) (t X : ℚ) : Prop :=
  ∀ k : ℤ, t ≤ |X * 10 ^ (2 * ((c.ed : ℤ) * k)) - 1| ∧ t ≤ |4 * X * 10 ^ (2 * ((c.ed : ℤ) * k)) - 1|

theorem Approx.nonzero {c : Cfg} {p : ℕ} {lo : ℤ} {r : DW} {S e : ℚ} (h : Approx c p lo r S e) (he : e < |S|) :
    WF c r ∧ r.isZero = false ∧ p ≤ r.prec ∧ (10 : ℚ) ^ lo ≤ |r.val c| ∧ |r.val c - S| ≤ e := by
  rcases h with h | ⟨-, -, -, -, h⟩
  · exact h
  · linarith

theorem posi_of_val {c : Cfg} {r : DW} (h : WF c r) (hv : 0 < r.val c) : Posi c r := by
  refine ⟨h, isZero_false_of_val h hv.ne', ?_⟩
  by_contra hn
  have : r.neg = true := by simpa using hn
  have := val_sgn c r
  rw [‹r.neg = true›] at this
  simp only [if_true] at this
  have := abs_nonneg (r.val c)
  linarith

theorem Posi.val_pos {c : Cfg} {r : DW} (h : Posi c r) : 0 < r.val c := by
  have h1 := val_sgn c r
  rw [h.nn] at h1
  simp only [Bool.false_eq_true, if_false, one_mul] at h1
  rw [h1]
  exact h.toWF.abs_pos h.nz

theorem Posi.abs_val {c : Cfg} {r : DW} (h : Posi c r) : |r.val c| = r.val c := abs_of_pos h.val_pos

theorem eta_anti {c : Cfg} {p q : ℕ} (h : q ≤ p) : eta c p ≤ eta c q := by
  unfold eta
  apply zpow_le_zpow_right₀ (by norm_num)
  have h1 : (q : ℤ) ≤ p := by exact_mod_cast h
  have h2 : (0 : ℤ) ≤ c.ed := by positivity
  have := mul_le_mul_of_nonneg_left (show (q : ℤ) - 1 ≤ p - 1 by omega) h2
  linarith

theorem Approx.mono {c : Cfg} {p q : ℕ} {lo lo' : ℤ} {r : DW} {S e e' : ℚ} (h : Approx c p lo r S e) (hq : q ≤ p) (hl : lo' ≤ lo)
    (he : e ≤ e') : Approx c q lo' r S e' := by
  rcases h with ⟨a, b, d, f, g⟩ | ⟨a, b, d, f, g⟩
  · exact Or.inl ⟨a, b, by omega, le_trans (zpow_le_zpow_right₀ (by norm_num) hl) f, by linarith⟩
  · exact Or.inr ⟨a, b, d, by omega, by linarith⟩

/-- Product with an approximated factor, then added to a number much larger than the product. -/
theorem add_small {c : Cfg} (hok : MulOkAll c) {u v h : DW} {q : ℕ} {lo : ℤ} {S e : ℚ} (hu : Posi c u) (hup : q ≤ u.prec)
    (hv : Posi c v) (hvp : q ≤ v.prec) (hq2 : 2 ≤ q) (hqN : q ≤ c.N)
    (hh : Approx c q lo h S e) (hE : 0 < c.maxExp) (hrange : h.isZero = false → WF c h → (10 : ℚ) ^ lo ≤ |h.val c| → |h.val c - S| ≤ e →
      -(c.maxExp : ℤ) < v.exp + h.exp ∧ v.exp + h.exp < c.maxExp)
    (hsmall : ∀ H w : ℚ, |H - S| ≤ e → |w - v.val c * H| ≤ 3 * eta c q * (v.val c * |H|) → |w| ≤ u.val c / 2 ∧
      (q < c.N → u.val c + |w| < 10 ^ (u.exp + (c.ed : ℤ)))) :
    let r := addAssign c u (mulAssign c v h)
    Posi c r ∧ q ≤ r.prec ∧
      ∃ H w : ℚ, |H - S| ≤ e ∧ |w - v.val c * H| ≤ 3 * eta c q * (v.val c * |H|) ∧
        |r.val c - (u.val c + w)| ≤ 3 * (max (u.val c) |w| * eta c q) := by
  intro r
  have hu0 := hu.val_pos
  have hv0 := hv.val_pos
  have hη := eta_pos c q
  have hη1 := eta_le (c := c) hq2
  rcases hh with ⟨h1, h2, h3, h4, h5⟩ | ⟨h1, h2, h3, h4, h5⟩
  · obtain ⟨r1, r2⟩ := hrange h2 h1 h4 h5
    obtain ⟨p, hp⟩ : ∃ p, p = min v.prec h.prec := ⟨_, rfl⟩
    have hpN : p ≤ c.N := by have := hv.precN; omega
    obtain ⟨m1, m2, m3, m4, m5⟩ := mul_near hv.toWF h1 hv.nz h2 hp (hok.ok (by omega) hpN) r1 r2
    have hr : r = addAssign c u (mulAssign c v h) := rfl
    generalize mulAssign c v h = w at *
    rw [hv.abs_val] at m5
    replace m5 : |w.val c - v.val c * h.val c| ≤ 3 * eta c q * (v.val c * |h.val c|) := by
      refine le_trans m5 (mul_le_mul_of_nonneg_right ?_ (mul_nonneg hv0.le (abs_nonneg _)))
      have := eta_anti (c := c) (show q ≤ p by omega); linarith
    obtain ⟨s1, s2⟩ := hsmall (h.val c) (w.val c) h5 m5
    obtain ⟨p', hp'⟩ : ∃ p, p = min u.prec w.prec := ⟨_, rfl⟩
    have hcy : p' < c.N → u.neg = w.neg → |u.val c| + |w.val c| < 10 ^ (max u.exp w.exp + (c.ed : ℤ)) := by
      intro hq _
      rw [hu.abs_val]
      refine lt_of_lt_of_le (s2 (by omega)) (zpow_le_zpow_right₀ (by norm_num) ?_)
      have := le_max_left u.exp w.exp
      omega
    have := add_near hu.toWF m1 hu.nz m2 hp' hcy
    rw [← hr, hu.abs_val] at this
    have hm0 : 0 ≤ max (u.val c) |w.val c| := le_trans hu0.le (le_max_left _ _)
    have h6 := mul_le_mul_of_nonneg_left (eta_anti (c := c) (show q ≤ p' by omega)) hm0
    replace this := this.mono (q := q) (e' := 3 * (max (u.val c) |w.val c| * eta c q)) (by omega) le_rfl (by linarith)
    have hmx : max (u.val c) |w.val c| = u.val c := max_eq_left (by linarith)
    have hsum : u.val c / 2 ≤ u.val c + w.val c := by
      have := neg_abs_le (w.val c); linarith
    have he : 3 * (max (u.val c) |w.val c| * eta c q) < |u.val c + w.val c| := by
      rw [hmx, abs_of_pos (by linarith)]
      nlinarith
    obtain ⟨a1, a2, a3, -, a5⟩ := this.nonzero he
    refine ⟨posi_of_val a1 ?_, a3, h.val c, w.val c, h5, m5, a5⟩
    have := (abs_le.mp a5).1
    rw [hmx] at this
    nlinarith
  · have hw := mul_isZero hv.toWF h3 h1 h2 hok hE
    have hr : r = u := addAssign_zero_right hu.nz hw
    refine ⟨by rw [hr]; exact hu, by rw [hr]; omega, 0, 0, by rw [zero_sub, abs_neg]; exact h5, by simp, ?_⟩
    rw [hr]; simp
    positivity

theorem sq_zpow (c : Cfg) (k : ℤ) : (10 : ℚ) ^ (2 * ((c.ed : ℤ) * k)) = (10 ^ ((c.ed : ℤ) * k)) ^ 2 := by
  rw [mul_comm, zpow_mul]; norm_cast

/-- A number v with (2sv-like relation) `4 X v² (1+a) = (1+g)²` does not lie just below a power of the radix. -/
theorem off_v {X v P a g m t : ℚ} (hv : 0 < v) (hP : v < P) (ha : |a| ≤ t / 10) (hg : |g| ≤ t / 10) (hm0 : 0 ≤ m)
    (hm : m ≤ t / 8) (ht : t ≤ 1 / 10) (ht0 : 0 < t) (hrel : 4 * X * v ^ 2 * (1 + a) = (1 + g) ^ 2)
    (hoff : t ≤ |4 * X * P ^ 2 - 1|) : v * (1 + m) < P := by
  by_contra hc
  push Not at hc
  obtain ⟨a1, a2⟩ := abs_le.mp ha
  obtain ⟨g1, g2⟩ := abs_le.mp hg
  have h1a : 0 < 1 + a := by linarith
  obtain ⟨T, hT⟩ : ∃ T, T = 4 * X * P ^ 2 := ⟨_, rfl⟩
  have hX : 0 < X := by
    by_contra hX
    have : 4 * X * v ^ 2 * (1 + a) ≤ 0 := by
      apply mul_nonpos_of_nonpos_of_nonneg _ h1a.le
      apply mul_nonpos_of_nonpos_of_nonneg (by linarith) (sq_nonneg _)
    have h2 : 0 < (1 + g) ^ 2 := by apply pow_pos; linarith
    linarith
  have hlo : (1 + g) ^ 2 ≤ T * (1 + a) := by
    rw [← hrel, hT]
    apply mul_le_mul_of_nonneg_right _ h1a.le
    apply mul_le_mul_of_nonneg_left _ (by linarith)
    exact pow_le_pow_left₀ hv.le hP.le 2
  have hhi : T * (1 + a) ≤ (1 + g) ^ 2 * (1 + m) ^ 2 := by
    rw [← hrel, hT]
    have : P ^ 2 ≤ (v * (1 + m)) ^ 2 := pow_le_pow_left₀ (by linarith) hc 2
    have h2 := mul_le_mul_of_nonneg_left this (show 0 ≤ 4 * X * (1 + a) by positivity)
    calc 4 * X * P ^ 2 * (1 + a) = 4 * X * (1 + a) * P ^ 2 := by ring
      _ ≤ 4 * X * (1 + a) * (v * (1 + m)) ^ 2 := h2
      _ = _ := by ring
  rw [← hT] at hoff
  have h1 : 1 - t < T := by
    have h3 : (1 - t / 10) ^ 2 ≤ (1 + g) ^ 2 := pow_le_pow_left₀ (by linarith) (by linarith) 2
    by_contra h
    push Not at h
    have h4 : T * (1 + a) ≤ (1 - t) * (1 + t / 10) := mul_le_mul h (by linarith) h1a.le (by linarith)
    nlinarith
  have h2 : T < 1 + t := by
    have h3 : (1 + g) ^ 2 ≤ (1 + t / 10) ^ 2 := pow_le_pow_left₀ (by linarith) (by linarith) 2
    have h3' : (1 + m) ^ 2 ≤ (1 + t / 8) ^ 2 := pow_le_pow_left₀ (by linarith) (by linarith) 2
    by_contra h
    push Not at h
    have h4 : (1 + t) * (1 - t / 10) ≤ T * (1 + a) := mul_le_mul h (by linarith) (by linarith) (by linarith)
    have h5 : (1 + g) ^ 2 * (1 + m) ^ 2 ≤ (1 + t / 10) ^ 2 * (1 + t / 8) ^ 2 := mul_le_mul h3 h3' (sq_nonneg _) (sq_nonneg _)
    have h6 : (1 + t / 10) ^ 2 ≤ 1 + 201 / 1000 * t := by nlinarith
    have h7 : (1 + t / 8) ^ 2 ≤ 1 + 252 / 1000 * t := by nlinarith
    have h8 : (1 + t / 10) ^ 2 * (1 + t / 8) ^ 2 ≤ (1 + 201 / 1000 * t) * (1 + 252 / 1000 * t) := mul_le_mul h6 h7 (sq_nonneg _) (by positivity)
    nlinarith
  have h3 : |T - 1| < t := by rw [abs_lt]; constructor <;> linarith
  linarith

/-- A number s with `s² = X (1+a)` does not lie just below a power of the radix. -/
theorem off_s {X s P Q a m t : ℚ} (hs : 0 < s) (hP : s < P) (hPQ : P * Q = 1) (ha : |a| ≤ t / 10) (hm0 : 0 ≤ m)
    (hm : m ≤ t / 8) (ht : t ≤ 1 / 10) (ht0 : 0 < t) (hrel : s ^ 2 = X * (1 + a)) (hoff : t ≤ |X * Q ^ 2 - 1|) : s * (1 + m) < P := by
  by_contra hc
  push Not at hc
  obtain ⟨a1, a2⟩ := abs_le.mp ha
  have h1a : 0 < 1 + a := by linarith
  have hP0 : 0 < P := lt_trans hs hP
  have hQ0 : 0 < Q := by
    by_contra h
    have := mul_nonpos_of_nonneg_of_nonpos hP0.le (not_lt.mp h)
    linarith
  obtain ⟨T, hT⟩ : ∃ T, T = X * Q ^ 2 := ⟨_, rfl⟩
  have hsq : s * Q < 1 := by rw [← hPQ]; exact mul_lt_mul_of_pos_right hP hQ0
  have hsq2 : 1 ≤ s * Q * (1 + m) := by
    have := mul_le_mul_of_nonneg_right hc hQ0.le
    rw [hPQ] at this; linarith
  have hrel2 : T * (1 + a) = (s * Q) ^ 2 := by rw [hT, mul_pow, hrel]; ring
  have hsQ0 : 0 < s * Q := mul_pos hs hQ0
  have hhi : T * (1 + a) ≤ 1 := by rw [hrel2]; exact pow_le_one₀ hsQ0.le hsq.le
  have hlo : 1 ≤ T * (1 + a) * (1 + m) ^ 2 := by
    rw [hrel2, ← mul_pow]; exact one_le_pow₀ hsq2
  have hT0 : 0 < T := by
    by_contra h
    have : T * (1 + a) ≤ 0 := mul_nonpos_of_nonpos_of_nonneg (not_lt.mp h) h1a.le
    have : 0 < (s * Q) ^ 2 := by positivity
    linarith
  rw [← hT] at hoff
  have h2 : T < 1 + t := by
    by_contra h
    push Not at h
    have h4 : (1 + t) * (1 - t / 10) ≤ T * (1 + a) := mul_le_mul h (by linarith) (by linarith) (by linarith)
    nlinarith
  have h1 : 1 - t < T := by
    by_contra h
    push Not at h
    have h3' : (1 + m) ^ 2 ≤ (1 + t / 8) ^ 2 := pow_le_pow_left₀ (by linarith) (by linarith) 2
    have h7 : (1 + t / 8) ^ 2 ≤ 1 + 252 / 1000 * t := by nlinarith
    have h4 : T * (1 + a) ≤ (1 - t) * (1 + t / 10) := mul_le_mul h (by linarith) h1a.le (by linarith)
    have h5 : T * (1 + a) * (1 + m) ^ 2 ≤ (1 - t) * (1 + t / 10) * (1 + 252 / 1000 * t) :=
      mul_le_mul h4 (by linarith) (sq_nonneg _) (mul_nonneg (by linarith) (by linarith))
    nlinarith [mul_pos ht0 ht0, mul_pos (mul_pos ht0 ht0) ht0]
  have h3 : |T - 1| < t := by rw [abs_lt]; constructor <;> linarith
  linarith

theorem two_exp_lt {c : Cfg} {r : DW} (h : Posi c r) {m : ℤ} (hm : r.val c ^ 2 < 10 ^ m) : 2 * r.exp < m := by
  have h1 := h.toWF.abs_ge h.nz
  rw [h.abs_val] at h1
  have h2 : (10 : ℚ) ^ (2 * r.exp) ≤ r.val c ^ 2 := by
    rw [mul_comm, zpow_mul]
    exact pow_le_pow_left₀ (p10_pos _).le h1 2
  exact (zpow_lt_zpow_iff_right₀ (by norm_num : (1 : ℚ) < 10)).mp (lt_of_le_of_lt h2 hm)

theorem lt_two_exp {c : Cfg} {r : DW} (h : Posi c r) {m : ℤ} (hm : (10 : ℚ) ^ m ≤ r.val c ^ 2) : m < 2 * r.exp + 2 * c.ed := by
  have h1 := h.toWF.abs_lt
  rw [h.abs_val] at h1
  have h2 : r.val c ^ 2 < (10 : ℚ) ^ (2 * (r.exp + c.ed)) := by
    rw [mul_comm, zpow_mul]
    exact pow_lt_pow_left₀ h1 h.val_pos.le (by norm_num)
  have := (zpow_lt_zpow_iff_right₀ (by norm_num : (1 : ℚ) < 10)).mp (lt_of_le_of_lt hm h2)
  omega

theorem ten_two (a : ℤ) (b : ℤ) : (10 : ℚ) ^ (a + b) = 10 ^ a * 10 ^ b := zpow_add₀ (by norm_num) _ _

set_option maxHeartbeats 2000000 in
/-- One round of the iteration. -/
theorem sqrtStep_spec {c : Cfg} (hok : MulOkAll c) {x s v : DW} (hx : Posi c x) (hs : Posi c s) (hv : Posi c v) {a g t : ℚ}
    (ha : s.val c * s.val c = x.val c * (1 + a)) (ha1 : |a| ≤ 1 / 100) (hg : 2 * (s.val c * v.val c) = 1 + g) (hg1 : |g| ≤ 1 / 10)
    (hr1 : x.exp + (c.N + 6) * c.ed < c.maxExp) (hr2 : -x.exp + (c.N + 6) * c.ed < c.maxExp) (D : ℕ)
    {q : ℕ} (q2 : 2 ≤ q) (qN : q ≤ c.N) (hq : ∀ x : DW, precision c x ((D : ℤ) * 2 + min ((c.ed : ℤ) + 1) 9) = { x with prec := q })
    (hη : eta c q ≤ 1 / 10 ^ 4)
    (hoff : q < c.N → OffSq c t (x.val c) ∧ 0 < t ∧ t ≤ 1 / 10 ∧ |a| ≤ t / 10 ∧ |g| ≤ t / 10 ∧ eta c q ≤ t / 400) :
    let r := sqrtStep c D s v x
    Posi c r.1 ∧ Posi c r.2.1 ∧ r.2.2 = { x with prec := q } ∧
    ∃ g1 a1 g', |g1| ≤ g ^ 2 + 15 * eta c q ∧
      r.1.val c * r.1.val c = x.val c * (1 + a1) ∧ |a1| ≤ |g1| * |a| + 3 / 10 * a ^ 2 + 27 / 2 * eta c q ∧
      2 * (r.1.val c * r.2.1.val c) = 1 + g' ∧ |g'| ≤ |g1| + 53 / 100 * |a| + 7 * eta c q := by
  intro r
  have hη0 := eta_pos c q
  obtain ⟨S, hS⟩ : ∃ S : DW, S = { s with prec := q } := ⟨_, rfl⟩
  obtain ⟨V, hV⟩ : ∃ V : DW, V = { v with prec := q } := ⟨_, rfl⟩
  obtain ⟨X, hX⟩ : ∃ X : DW, X = { x with prec := q } := ⟨_, rfl⟩
  have pS := hs.setPrec q2 qN
  have pV := hv.setPrec q2 qN
  have pX := hx.setPrec q2 qN
  rw [← hS] at pS
  rw [← hV] at pV
  rw [← hX] at pX
  have hSv : S.val c = s.val c := by rw [hS]; rfl
  have hVv : V.val c = v.val c := by rw [hV]; rfl
  have hXv : X.val c = x.val c := by rw [hX]; rfl
  have hSe : S.exp = s.exp := by rw [hS]
  have hVe : V.exp = v.exp := by rw [hV]
  have hXe : X.exp = x.exp := by rw [hX]
  have hSp : S.prec = q := by rw [hS]
  have hVp : V.prec = q := by rw [hV]
  have hXp : X.prec = q := by rw [hX]
  have hdef : r = (let v' := addAssign c V (mulAssign c V (addAssign c (mulSLL c (mulAssign c S V) (-2)) (one c)))
      let s' := addAssign c S (mulAssign c v' (addAssign c (mulAssign c S S).negate X))
      (s', v', X)) := by
    show sqrtStep c D s v x = _
    unfold sqrtStep
    have hmn : ((min (c.ed + 1) 9 : ℕ) : ℤ) = min ((c.ed : ℤ) + 1) 9 := by push_cast; rfl
    simp only [hmn, hq, hS, hV, hX]
  have s0 := pS.val_pos
  have v0 := pV.val_pos
  have x0 := pX.val_pos
  rw [← hSv, ← hXv] at ha
  rw [← hSv, ← hVv] at hg
  obtain ⟨ha2, ha3⟩ := abs_le.mp ha1
  obtain ⟨hg2, hg3⟩ := abs_le.mp hg1
  have hed2 : (2 : ℤ) ≤ c.ed := by
    have : 2 ≤ c.ed := by unfold Cfg.ed; cases c.L <;> decide
    exact_mod_cast this
  have hN3 : (3 : ℤ) ≤ c.N := by exact_mod_cast c.three_le_N
  have hNe : 3 * (c.ed : ℤ) ≤ c.N * c.ed := mul_le_mul_of_nonneg_right hN3 (by omega)
  have hr1' : x.exp + (c.N * c.ed + 6 * c.ed) < c.maxExp := by rw [← add_mul]; exact hr1
  have hr2' : -x.exp + (c.N * c.ed + 6 * c.ed) < c.maxExp := by rw [← add_mul]; exact hr2
  -- exponents
  have xg := pX.toWF.abs_ge pX.nz
  have xl := pX.toWF.abs_lt
  rw [pX.abs_val] at xg xl
  have es1 : 2 * S.exp < X.exp + c.ed + 1 := by
    apply two_exp_lt pS
    rw [ten_two, pow_two, ha]
    norm_num
    nlinarith
  have es2 : X.exp + -1 < 2 * S.exp + 2 * c.ed := by
    apply lt_two_exp pS
    rw [ten_two, pow_two, ha]
    have := p10_pos X.exp
    norm_num
    nlinarith
  have hrel : 4 * X.val c * V.val c ^ 2 * (1 + a) = (1 + g) ^ 2 := by
    rw [← hg, show 4 * X.val c * V.val c ^ 2 * (1 + a) = 4 * V.val c ^ 2 * (X.val c * (1 + a)) by ring, ← ha]; ring
  have hxv1 : X.val c * V.val c ^ 2 ≤ 4 / 10 := by
    have h1 : (1 + g) ^ 2 ≤ 121 / 100 := by nlinarith
    have h2 : 0 ≤ X.val c * V.val c ^ 2 := by positivity
    nlinarith
  have hxv2 : 19 / 100 ≤ X.val c * V.val c ^ 2 := by
    have h1 : 81 / 100 ≤ (1 + g) ^ 2 := by nlinarith
    have h2 : 0 ≤ X.val c * V.val c ^ 2 := by positivity
    nlinarith
  have ev1 : 2 * V.exp < -X.exp := by
    apply two_exp_lt pV
    rw [zpow_neg, ← one_div, lt_div_iff₀ (p10_pos _)]
    have := mul_le_mul_of_nonneg_left xg (sq_nonneg (V.val c))
    linarith
  have ev2 : -(X.exp + c.ed) + -1 < 2 * V.exp + 2 * c.ed := by
    apply lt_two_exp pV
    rw [ten_two, zpow_neg, ← one_div, div_mul_eq_mul_div, div_le_iff₀ (p10_pos _)]
    have := mul_le_mul_of_nonneg_left xl.le (sq_nonneg (V.val c))
    norm_num
    linarith
  -- t1 = s v
  obtain ⟨a1, a2, a3, a4, a5⟩ := mul_near pS.toWF pV.toWF pS.nz pV.nz (p := q) (by rw [hSp, hVp, Nat.min_self])
    (hok.ok (by omega) qN) (by omega) (by omega)
  generalize ht1 : mulAssign c S V = t1 at *
  rw [pS.abs_val, pV.abs_val] at a5
  have t1n : t1.neg = false := by rw [a3, pS.nn, pV.nn]; rfl
  have pt1 : Posi c t1 := ⟨a1, a2, t1n⟩
  have ht1b : t1.val c < 1 := by
    have := (abs_le.mp a5).2
    have h1 : S.val c * V.val c ≤ 55 / 100 := by linarith
    have h2 : 0 < S.val c * V.val c := mul_pos s0 v0
    nlinarith
  have et1 : t1.exp < 0 := by
    have h1 := a1.abs_ge a2
    rw [pt1.abs_val] at h1
    have : (10 : ℚ) ^ t1.exp < 10 ^ (0 : ℤ) := by rw [zpow_zero]; linarith
    exact (zpow_lt_zpow_iff_right₀ (by norm_num : (1 : ℚ) < 10)).mp this
  -- t2 = -2 t1
  have h2B : 2 < c.B := by unfold Cfg.B; cases c.L <;> decide
  have ho2 : orderOf 2 = 1 := by decide +kernel
  have hmaxE : 0 < (c.maxExp : ℤ) := by omega
  obtain ⟨b1, b2, b3, b4, b5⟩ := mulULL_near a1 a2 (n := 2) (le_refl _) h2B (by rw [ho2]; push_cast; omega)
  have ht2 : mulSLL c t1 (-2) = (mulULL c t1 2).negate := by
    unfold mulSLL
    have : negULL (castULL (-2)) = 2 := by decide
    simp [this]
  rw [ht2] at hdef
  generalize mulULL c t1 2 = T at *
  have c1 := negate_WF b1
  have c2 : T.negate.isZero = false := by rw [negate_isZero]; exact b2
  have c3 : T.negate.neg = true := by rw [negate_neg b2, b3, t1n]; rfl
  have c4 : T.negate.prec = t1.prec := by rw [negate_prec, b4]
  have c5 : |T.negate.val c + t1.val c * 2| ≤ 2 * eta c q * (|t1.val c| * 2) := by
    rw [negate_val c b1, show -T.val c + t1.val c * 2 = -(T.val c - t1.val c * 2) by ring, abs_neg]
    push_cast at b5
    refine le_trans b5 (mul_le_mul_of_nonneg_right ?_ (by positivity))
    have := eta_anti (c := c) a4
    linarith
  generalize T.negate = t2 at *
  -- h = t2 + 1
  have oz : (one c).isZero = false := isZero_false_of_val (one_full c).toWF (by rw [one_val]; norm_num)
  have hh := add_near c1 (one_full c).toWF c2 oz (p := min t2.prec (one c).prec) rfl (by
    intro _ hn; rw [c3, show (one c).neg = false from rfl] at hn; exact absurd hn (by decide))
  have o1 : (one c).exp = 0 := rfl
  have o2 : (one c).prec = c.N := (one_full c).full
  rw [one_val, o1, o2, abs_one] at hh
  have hpq : q ≤ min t2.prec c.N := by omega
  have hpN' : ((min t2.prec c.N : ℕ) : ℤ) ≤ c.N := by omega
  replace hh := hh.mono (q := q) (lo' := -(c.ed * ((c.N : ℤ) - 1))) (e' := 3 * (max |t2.val c| 1 * eta c q)) hpq (by
      have h1 := le_max_right t2.exp 0
      have h2 := mul_le_mul_of_nonneg_left (show ((min t2.prec c.N : ℕ) : ℤ) - 1 ≤ c.N - 1 by omega) (show (0 : ℤ) ≤ c.ed by omega)
      linarith) (by
      have h1 := mul_le_mul_of_nonneg_left (eta_anti (c := c) hpq) (show 0 ≤ max |t2.val c| 1 from le_trans (by norm_num) (le_max_right _ _))
      linarith)
  generalize addAssign c t2 (one c) = h at *
  have numv : ∀ H w v1 : ℚ, |H - (t2.val c + 1)| ≤ 3 * (max |t2.val c| 1 * eta c q) →
      |w - V.val c * H| ≤ 3 * eta c q * (V.val c * |H|) → |v1 - (V.val c + w)| ≤ 3 * (max (V.val c) |w| * eta c q) →
      |H + g| ≤ 19 / 2 * eta c q ∧ |w| ≤ V.val c * (|g| + 10 * eta c q) ∧
        ∃ e, |e| ≤ 13 * eta c q ∧ v1 = V.val c * (1 - g + e) :=
    fun H w v1 q1 q2 q3 => sqrt_num_v hη0 hη v0 hg hg1 a5 c5 q1 q2 q3
  have nedN : (c.ed : ℤ) * ((c.N : ℤ) - 1) = c.N * c.ed - c.ed := by ring
  obtain ⟨d1, d2, H, w, d3, d4, d5⟩ := add_small hok pV (le_of_eq hVp.symm) pV (le_of_eq hVp.symm) q2 qN hh (by omega) (by
      intro hz hw hlo herr
      obtain ⟨e1, -, -⟩ := numv (h.val c) (V.val c * h.val c) (V.val c + V.val c * h.val c) herr (by simp; positivity)
        (by simp; positivity)
      have l1 := hw.abs_lt
      have l2 : -((c.ed : ℤ) * ((c.N : ℤ) - 1)) < h.exp + c.ed :=
        (zpow_lt_zpow_iff_right₀ (by norm_num : (1 : ℚ) < 10)).mp (lt_of_le_of_lt hlo l1)
      have l3 := hw.abs_ge hz
      have l4 : h.exp < 0 := by
        have h1 : |h.val c| < 1 := by
          have := abs_sub (h.val c + g) g
          simp only [add_sub_cancel_right] at this
          linarith
        have : (10 : ℚ) ^ h.exp < 10 ^ (0 : ℤ) := by rw [zpow_zero]; linarith
        exact (zpow_lt_zpow_iff_right₀ (by norm_num : (1 : ℚ) < 10)).mp this
      rw [nedN] at l2
      omega) (by
      intro H w q1 q2
      obtain ⟨-, e2, -⟩ := numv H w (V.val c + w) q1 q2 (by
        simp only [sub_self, abs_zero]
        have : 0 ≤ max (V.val c) |w| := le_trans v0.le (le_max_left _ _)
        positivity)
      refine ⟨le_trans e2 (by nlinarith), fun hqN => ?_⟩
      obtain ⟨o1, o2, o3, o4, o5, o6⟩ := hoff hqN
      obtain ⟨k, hk⟩ := dvd_add pV.dvd (dvd_refl (c.ed : ℤ))
      have vl := pV.toWF.abs_lt
      rw [pV.abs_val] at vl
      have := off_v (m := |g| + 10 * eta c q) (t := t) v0 vl o4 o5 (by positivity) (by linarith) o3 o2 hrel (by
        rw [hk, ← sq_zpow, hXv]; exact (o1 k).2)
      linarith)
  generalize hv1 : addAssign c V (mulAssign c V h) = v1 at *
  obtain ⟨-, -, e, e1, e2⟩ := numv H w (v1.val c) d3 d4 d5
  have v10 := d1.val_pos
  obtain ⟨g1, gg1, gg2, gg3, -⟩ := sqrt_num_round (s1 := 0) (f := 0) hη0 hη ha ha1 hg hg1 e1 e2
  -- exponent of v1
  have hrel1 : 4 * X.val c * v1.val c ^ 2 * (1 + a) = (1 + g1) ^ 2 := by
    rw [← gg1, show 4 * X.val c * v1.val c ^ 2 * (1 + a) = 4 * v1.val c ^ 2 * (X.val c * (1 + a)) by ring, ← ha]; ring
  obtain ⟨gg4, gg5⟩ := abs_le.mp gg3
  have hxw1 : X.val c * v1.val c ^ 2 ≤ 4 / 10 := by
    have h1 : (1 + g1) ^ 2 ≤ 121 / 100 := by nlinarith
    have h2 : 0 ≤ X.val c * v1.val c ^ 2 := by positivity
    nlinarith
  have hxw2 : 19 / 100 ≤ X.val c * v1.val c ^ 2 := by
    have h1 : 81 / 100 ≤ (1 + g1) ^ 2 := by nlinarith
    have h2 : 0 ≤ X.val c * v1.val c ^ 2 := by positivity
    nlinarith
  have ew1 : 2 * v1.exp < -X.exp := by
    apply two_exp_lt d1
    rw [zpow_neg, ← one_div, lt_div_iff₀ (p10_pos _)]
    have := mul_le_mul_of_nonneg_left xg (sq_nonneg (v1.val c))
    linarith
  have ew2 : -(X.exp + c.ed) + -1 < 2 * v1.exp + 2 * c.ed := by
    apply lt_two_exp d1
    rw [ten_two, zpow_neg, ← one_div, div_mul_eq_mul_div, div_le_iff₀ (p10_pos _)]
    have := mul_le_mul_of_nonneg_left xl.le (sq_nonneg (v1.val c))
    norm_num
    linarith
  -- m = s s
  obtain ⟨f1, f2, f3, f4, f5⟩ := mul_near pS.toWF pS.toWF pS.nz pS.nz (p := q) (by rw [hSp, Nat.min_self])
    (hok.ok (by omega) qN) (by omega) (by omega)
  generalize mulAssign c S S = m at *
  rw [pS.abs_val] at f5
  have mn : m.neg = false := by rw [f3, pS.nn]; rfl
  have pm : Posi c m := ⟨f1, f2, mn⟩
  have k1 := negate_WF f1
  have k2 : m.negate.isZero = false := by rw [negate_isZero]; exact f2
  have k3 : m.negate.neg = true := by rw [negate_neg f2, mn]; rfl
  have k4 : m.negate.prec = m.prec := negate_prec _
  have k5 : m.negate.val c = -m.val c := negate_val c f1
  generalize m.negate = m' at *
  have hy := add_near k1 pX.toWF k2 pX.nz (p := min m'.prec X.prec) rfl (by
    intro _ hn; rw [k3, pX.nn] at hn; exact absurd hn (by decide))
  rw [k5, abs_neg, pX.abs_val, hXp] at hy
  have hpq2 : min m'.prec q = q := by omega
  rw [hpq2] at hy
  have hqN' : (q : ℤ) ≤ c.N := by exact_mod_cast qN
  replace hy := hy.mono (q := q) (lo' := X.exp - (c.ed * ((c.N : ℤ) - 1))) (e' := 3 * (max |m.val c| (X.val c) * eta c q)) le_rfl (by
      have h1 := le_max_right m'.exp X.exp
      have h2 := mul_le_mul_of_nonneg_left (show (q : ℤ) - 1 ≤ c.N - 1 by omega) (show (0 : ℤ) ≤ c.ed by omega)
      linarith) le_rfl
  rw [show -m.val c + X.val c = X.val c - m.val c by ring] at hy
  generalize addAssign c m' X = y at *
  have nums : ∀ Y z s1 : ℚ, |Y - (X.val c - m.val c)| ≤ 3 * (max |m.val c| (X.val c) * eta c q) →
      |z - v1.val c * Y| ≤ 3 * eta c q * (v1.val c * |Y|) → |s1 - (S.val c + z)| ≤ 3 * (max (S.val c) |z| * eta c q) →
      |Y| ≤ X.val c / 50 ∧ |z| ≤ S.val c * (11 / 20 * |a| + 4 * eta c q) ∧
        ∃ e, |e| ≤ 13 / 2 * eta c q ∧ s1 = S.val c * (1 - (1 + g1) / (2 * (1 + a)) * a + e) :=
    fun Y z s1 q1 q2 q3 => sqrt_num_s hη0 hη x0 s0 v10 ha ha1 gg1 gg3 f5 q1 q2 q3
  obtain ⟨j1, j2, Y, z, j3, j4, j5⟩ := add_small hok pS (le_of_eq hSp.symm) d1 d2 q2 qN hy (by omega) (by
      intro hz hw hlo herr
      obtain ⟨e1, -, -⟩ := nums (y.val c) (v1.val c * y.val c) (S.val c + v1.val c * y.val c) herr (by simp; positivity)
        (by
          simp only [sub_self, abs_zero]
          have : 0 ≤ max (S.val c) |v1.val c * y.val c| := le_trans s0.le (le_max_left _ _)
          positivity)
      have l1 := hw.abs_lt
      have l2 : X.exp - ((c.ed : ℤ) * ((c.N : ℤ) - 1)) < y.exp + c.ed :=
        (zpow_lt_zpow_iff_right₀ (by norm_num : (1 : ℚ) < 10)).mp (lt_of_le_of_lt hlo l1)
      have l3 := hw.abs_ge hz
      have l4 : y.exp < X.exp + c.ed :=
        (zpow_lt_zpow_iff_right₀ (by norm_num : (1 : ℚ) < 10)).mp (by linarith)
      rw [nedN] at l2
      omega) (by
      intro Y z q1 q2
      obtain ⟨-, e2, -⟩ := nums Y z (S.val c + z) q1 q2 (by
        simp only [sub_self, abs_zero]
        have : 0 ≤ max (S.val c) |z| := le_trans s0.le (le_max_left _ _)
        positivity)
      refine ⟨le_trans e2 (by nlinarith), fun hqN => ?_⟩
      obtain ⟨o1, o2, o3, o4, o5, o6⟩ := hoff hqN
      obtain ⟨k, hk⟩ := dvd_add pS.dvd (dvd_refl (c.ed : ℤ))
      have sl := pS.toWF.abs_lt
      rw [pS.abs_val] at sl
      have a0 := abs_nonneg a
      have := off_s (Q := 10 ^ ((c.ed : ℤ) * (-k))) (m := 11 / 20 * |a| + 4 * eta c q) (t := t) s0 sl (by
          rw [hk, ← zpow_add₀ (by norm_num)]; simp) o4 (by positivity) (by linarith) o3 o2 (by rw [pow_two]; exact ha) (by
        rw [← sq_zpow, hXv]; exact (o1 (-k)).1)
      linarith)
  obtain ⟨-, -, f, ff1, ff2⟩ := nums Y z _ j3 j4 j5
  have hrv : r.1 = addAssign c S (mulAssign c v1 y) ∧ r.2.1 = v1 ∧ r.2.2 = X := by rw [hdef]; exact ⟨rfl, rfl, rfl⟩
  rw [hrv.1, hrv.2.1, hrv.2.2]
  generalize addAssign c S (mulAssign c v1 y) = s1 at *
  obtain ⟨g1', p1, p2, p3, p4⟩ := sqrt_num_round (s1 := s1.val c) (f := f) hη0 hη ha ha1 hg hg1 e1 e2
  have hgg : g1' = g1 := by linarith
  rw [hgg] at p2 p4
  obtain ⟨⟨a1', z1, z2⟩, ⟨g', z3, z4⟩⟩ := p4 ff1 ff2
  rw [← hXv]
  exact ⟨j1, d1, hX, g1, a1', g', p2, z1, z2, z3, z4⟩

end WD
