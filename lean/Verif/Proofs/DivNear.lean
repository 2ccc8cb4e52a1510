import Verif.Proofs.Div
import Verif.Proofs.Near
/-
  Division by a built-in integer at reduced precision.
-/
namespace WD
open DW

/-- The limb list of the quotient after the shift by one limb (`a` is the limb the code fails to move). -/
theorem div_list {c : Cfg} {l : List ℕ} {k : ℕ} (hl : l.length = k + 3) (hv : ValidLimbs c.B l) (hge : c.B ^ (k + 2) ≤ limbsVal c.B l)
    {n : ℕ} (h1 : 1 < n) (hn : n < c.B) (tail : List ℕ) :
    let s := divLoop c.L n 0 l
    s.1.length = k + 3 ∧ ValidLimbs c.B s.1 ∧
    ((s.1 ++ tail).headD 0 ≠ 0 → limbsVal c.B s.1 * n ≤ limbsVal c.B l ∧ limbsVal c.B l < (limbsVal c.B s.1 + 1) * n) ∧
    ((s.1 ++ tail).headD 0 = 0 →
      ∃ r : List ℕ, (((s.1 ++ tail).drop 1).take (k + 1) ++ (s.1 ++ tail).drop (k + 1)).set (k + 2) ((s.2 * c.B / n) % c.L.W) = r ++ tail ∧
        r.length = k + 3 ∧ ValidLimbs c.B r ∧ c.B ^ (k + 2) ≤ limbsVal c.B r ∧
        ∃ a b : ℕ, a < c.B ∧ b < c.B ∧ (limbsVal c.B r + b * c.B) * n ≤ limbsVal c.B l * c.B + a * c.B * n ∧
        limbsVal c.B l * c.B + a * c.B * n < (limbsVal c.B r + b * c.B + 1) * n) := by
  have hB := c.B_pos
  intro s
  obtain ⟨q1, q2, q3, q4⟩ := divLoop_spec c.L (n := n) (by omega) hn.le 0 l (by omega) hv
  change s.1.length = _ at q1
  change ValidLimbs c.B s.1 at q2
  change s.2 < n at q3
  rw [hl] at q1
  rw [Nat.zero_mul, Nat.zero_add] at q4
  change limbsVal c.B s.1 * n + s.2 = limbsVal c.B l at q4
  refine ⟨q1, q2, fun _ => ⟨by omega, by rw [Nat.add_mul]; omega⟩, fun h0 => ?_⟩
  obtain ⟨p, a, b, hp, hpl⟩ := list_last2 (l := s.1) (n := k + 1) (by rw [q1])
  obtain ⟨z, p', hp'⟩ : ∃ z p', p = z :: p' := by
    cases p with
    | nil => simp at hpl
    | cons z p' => exact ⟨z, p', rfl⟩
  have hpl' : p'.length = k := by rw [hp', List.length_cons] at hpl; omega
  have hz0 : z = 0 := by rw [hp, hp'] at h0; simpa using h0
  subst hz0
  have hde : s.1 = 0 :: (p' ++ [a, b]) := by rw [hp, hp']; rfl
  obtain ⟨t, ht⟩ : ∃ t, t = (s.2 * c.B / n) % c.L.W := ⟨_, rfl⟩
  have htB : s.2 * c.B / n < c.B := by
    rw [Nat.div_lt_iff_lt_mul (by omega), Nat.mul_comm]
    exact Nat.mul_lt_mul_of_pos_left q3 hB
  have htt : t = s.2 * c.B / n := by
    rw [ht]
    exact Nat.mod_eq_of_lt (by
      have := c.L.two_mask_lt
      have : c.B = c.L.mask := rfl
      omega)
  rw [← ht]
  obtain ⟨r, hr⟩ : ∃ r, r = p' ++ [a] ++ [a, t] := ⟨_, rfl⟩
  have hv2' := q2
  rw [hde] at hv2'
  have hv2 := validLimbs_append.mp (validLimbs_cons.mp hv2').2
  have ha : a < c.B := hv2.2 a (by simp)
  have hb : b < c.B := hv2.2 b (by simp)
  have hvpa : ValidLimbs c.B (p' ++ [a]) := validLimbs_append.mpr ⟨hv2.1, validLimbs_cons.mpr ⟨ha, validLimbs_nil _⟩⟩
  have hval : limbsVal c.B r = (limbsVal c.B (p' ++ [a])) * c.B ^ 2 + (a * c.B + t) := by
    rw [hr, limbsVal_append, limbsVal_two]; simp
  have hdv : limbsVal c.B s.1 = limbsVal c.B (p' ++ [a]) * c.B + b := by
    rw [hde, limbsVal_cons, Nat.zero_mul, Nat.zero_add, show p' ++ [a, b] = (p' ++ [a]) ++ [b] by simp, limbsVal_snoc]
  have hrest : s.2 * c.B = t * n + s.2 * c.B % n := by
    rw [htt, Nat.mul_comm (s.2 * c.B / n)]; exact (Nat.div_add_mod _ _).symm
  have hrl : s.2 * c.B % n < n := Nat.mod_lt _ (by omega)
  have hkey : limbsVal c.B l * c.B + a * c.B * n = (limbsVal c.B r + b * c.B) * n + s.2 * c.B % n := by
    obtain ⟨w, hw⟩ : ∃ w, s.2 * c.B % n = w := ⟨_, rfl⟩
    rw [hw] at hrest ⊢
    rw [← q4, Nat.add_mul, hrest, hval, hdv]; ring
  refine ⟨r, ?_, by rw [hr]; simp [hpl'], ?_, ?_, a, b, ha, hb, by rw [hkey]; omega, by rw [hkey, Nat.add_mul (_ + _) 1]; omega⟩
  · rw [hde, hr]
    have e1 : ((0 :: (p' ++ [a, b]) ++ tail).drop 1).take (k + 1) = p' ++ [a] := by
      rw [List.cons_append, List.drop_succ_cons, List.drop_zero, show p' ++ [a, b] ++ tail = (p' ++ [a]) ++ ([b] ++ tail) by simp]
      exact List.take_left' (by simp [hpl'])
    have e2 : (0 :: (p' ++ [a, b]) ++ tail).drop (k + 1) = [a, b] ++ tail := by
      rw [List.cons_append, List.drop_succ_cons, show p' ++ [a, b] ++ tail = p' ++ ([a, b] ++ tail) by simp]
      exact List.drop_left' hpl'
    rw [e1, e2, List.set_append_right _ _ (by simp [hpl'])]
    have : k + 2 - (p' ++ [a]).length = 1 := by simp [hpl']
    rw [this]; simp
  · rw [hr]
    exact validLimbs_append.mpr ⟨hvpa, validLimbs_cons.mpr ⟨ha, validLimbs_cons.mpr ⟨by rw [htt]; exact htB, validLimbs_nil _⟩⟩⟩
  · -- the second quotient limb is not zero
    have hh : c.B ^ k ≤ limbsVal c.B (p' ++ [a]) := by
      by_contra hlt
      push Not at hlt
      have hdlt : limbsVal c.B s.1 + 1 ≤ c.B ^ (k + 1) := by
        rw [hdv, pow_succ]
        calc limbsVal c.B (p' ++ [a]) * c.B + b + 1 ≤ limbsVal c.B (p' ++ [a]) * c.B + c.B := by omega
          _ = (limbsVal c.B (p' ++ [a]) + 1) * c.B := by ring
          _ ≤ _ := Nat.mul_le_mul_right _ hlt
      have : limbsVal c.B l < c.B ^ (k + 1) * n := by
        calc limbsVal c.B l = limbsVal c.B s.1 * n + s.2 := q4.symm
          _ < (limbsVal c.B s.1 + 1) * n := by rw [Nat.add_mul]; omega
          _ ≤ _ := Nat.mul_le_mul_right _ hdlt
      have h2 : c.B ^ (k + 1) * n < c.B ^ (k + 2) := by
        rw [pow_succ c.B (k + 1)]
        exact Nat.mul_lt_mul_of_pos_left hn (Nat.pow_pos hB)
      omega
    rw [hval]
    calc c.B ^ (k + 2) = c.B ^ k * c.B ^ 2 := by ring
      _ ≤ limbsVal c.B (p' ++ [a]) * c.B ^ 2 := Nat.mul_le_mul_right _ hh
      _ ≤ _ := Nat.le_add_right _ _

theorem headD_ne_of_ge2 {B : ℕ} {l : List ℕ} {k : ℕ} (hl : l.length = k + 1) (hv : ValidLimbs B l) (hB : 0 < B) (h : B ^ k ≤ limbsVal B l) (t : List ℕ) :
    (l ++ t).headD 0 ≠ 0 := by
  cases l with
  | nil => simp at hl
  | cons a as =>
    simp only [List.cons_append, List.headD_cons]
    intro h0
    rw [h0, limbsVal_cons, Nat.zero_mul, Nat.zero_add] at h
    have := limbsVal_lt (validLimbs_cons.mp hv).2
    rw [List.length_cons] at hl
    rw [show as.length = k by omega] at this
    omega

set_option maxHeartbeats 1000000 in
/-- Division by a built-in divisor below the radix, at any precision of at least three limbs. -/
theorem divULL_near {c : Cfg} {est : DW → DW} {fdig : ℕ} {x : DW} (hx : WF c x) (hxz : x.isZero = false) (h3 : 3 ≤ x.prec) {n : ℕ} (h1 : 2 ≤ n)
    (hn : n < c.B) (he : -(c.maxExp : ℤ) ≤ x.exp - c.ed) :
    let r := divULL c est fdig x n
    WF c r ∧ r.isZero = false ∧ r.prec = x.prec ∧ r.exp ≤ x.exp ∧
    |r.val c - x.val c / n| ≤ 2 * n * c.B * eta c x.prec * (|x.val c| / n) := by
  intro r
  have hB := c.B_pos
  have hB1 := c.one_lt_B
  have hedp := c.ed_pos
  obtain ⟨k, hk⟩ : ∃ k, x.prec = k + 3 := ⟨x.prec - 3, by omega⟩
  have hpN := hx.precN
  have hr : r = divULL c est fdig x n := rfl
  unfold divULL at hr
  simp only [hxz, Bool.false_eq_true, if_false] at hr
  rw [if_neg (by omega), if_neg (by omega), if_pos (show n > 1 by omega)] at hr
  have hlen : (x.data.take x.prec).length = k + 3 := by rw [take_length' hx.len hpN, hk]
  have hmg := hx.mantp_ge hxz (p := x.prec) (by omega) hpN
  change c.B ^ (x.prec - 1) ≤ limbsVal c.B (x.data.take x.prec) at hmg
  rw [hk, show k + 3 - 1 = k + 2 by omega, ← hk] at hmg
  obtain ⟨a1, a2, a3, a4⟩ := div_list (c := c) hlen (hx.valid.take _) hmg (n := n) (by omega) hn (x.data.drop x.prec)
  obtain ⟨s, hs⟩ : ∃ s, s = divLoop c.L n 0 (x.data.take x.prec) := ⟨_, rfl⟩
  rw [← hs] at hr a1 a2 a3 a4
  have hnq : (2 : ℚ) ≤ n := by exact_mod_cast h1
  have hBq : (100 : ℚ) ≤ c.B := by
    have : 100 ≤ c.B := by unfold Cfg.B; cases c.L <;> decide
    exact_mod_cast this
  have x0 := hx.absp_ge hxz (p := x.prec) (by omega) hpN
  have x1 := hx.absp_le hpN
  have x2 := hx.lt_absp hpN
  have hxl := lexpp_eq c x.prec x
  have hxa : x.absp c x.prec = limbsVal c.B (x.data.take x.prec) * 10 ^ x.lexpp c x.prec := rfl
  have hη := eta_pos c x.prec
  have htl : (x.data.drop x.prec).length = c.N - x.prec := by rw [List.length_drop, hx.len]
  -- the closing argument: the first limbs of the result and the sign
  have close : ∀ (m : List ℕ), m.length = k + 3 → ValidLimbs c.B m → c.B ^ (k + 2) ≤ limbsVal c.B m →
      r.data = m ++ x.data.drop x.prec → r.neg = x.neg → r.prec = x.prec → (c.ed : ℤ) ∣ r.exp → r.exp ≤ x.exp →
      |(limbsVal c.B m : ℚ) * 10 ^ r.lexpp c x.prec - x.absp c x.prec / n| + 10 ^ r.lexpp c x.prec + 10 ^ x.lexpp c x.prec / n ≤
        2 * n * c.B * eta c x.prec * (x.absp c x.prec / n) →
      WF c r ∧ r.isZero = false ∧ r.prec = x.prec ∧ r.exp ≤ x.exp ∧
        |r.val c - x.val c / n| ≤ 2 * n * c.B * eta c x.prec * (|x.val c| / n) := by
    intro m m1 m2 m3 m4 m5 m6 m7 m8 m9
    have hh : r.data.headD 0 ≠ 0 := by rw [m4]; exact headD_ne_of_ge2 (by rw [m1]) m2 hB m3 _
    have hwf : WF c r := ⟨by rw [m4, List.length_append, m1, htl]; omega, by rw [m4]; exact validLimbs_append.mpr ⟨m2, hx.valid.drop _⟩,
      m7, by rw [m6]; omega, by rw [m6]; exact hpN, fun h => absurd h hh⟩
    have hz : r.isZero = false := by simpa [isZero, d0] using hh
    refine ⟨hwf, hz, m6, m8, ?_⟩
    have hra : r.absp c x.prec = limbsVal c.B m * 10 ^ r.lexpp c x.prec := by
      unfold absp mantp
      rw [m4, List.take_left' (by rw [m1, hk])]
    have r1 := hwf.absp_le hpN
    have r2 := hwf.lt_absp hpN
    rw [← hra] at m9
    have hsg : r.val c - x.val c / n = (if x.neg then -1 else 1) * (|r.val c| - |x.val c| / n) := by
      rw [val_sgn c r, val_sgn c x, m5]; simp only [abs_mul, abs_abs]
      cases x.neg <;> simp <;> ring
    rw [hsg, abs_mul]
    have : |(if x.neg = true then (-1 : ℚ) else 1)| = 1 := by split <;> simp
    rw [this, one_mul]
    have d1 : x.absp c x.prec / n ≤ |x.val c| / n := div_le_div_of_nonneg_right x1 (by linarith)
    have d2 : |x.val c| / n ≤ x.absp c x.prec / n + 10 ^ x.lexpp c x.prec / n := by
      rw [← add_div]; exact div_le_div_of_nonneg_right x2.le (by linarith)
    have d3 : 2 * n * c.B * eta c x.prec * (x.absp c x.prec / n) ≤ 2 * n * c.B * eta c x.prec * (|x.val c| / n) :=
      mul_le_mul_of_nonneg_left d1 (by positivity)
    have d4 := abs_le.mp (le_refl |r.absp c x.prec - x.absp c x.prec / n|)
    refine le_trans ?_ (le_trans m9 d3)
    have p1 := p10_pos (r.lexpp c x.prec)
    have p2 : (0 : ℚ) ≤ 10 ^ x.lexpp c x.prec / n := div_nonneg (p10_pos _).le (by linarith)
    rw [abs_le]; constructor <;> linarith [d4.1, d4.2]
  have hM : (c.B : ℚ) ^ (k + 2) ≤ limbsVal c.B (x.data.take x.prec) := by exact_mod_cast hmg
  have hηB : eta c x.prec * c.B ^ (k + 2) = 1 := by
    unfold eta
    rw [c.p10_mul_B, hk]
    rw [show -((c.ed : ℤ) * (((k + 3 : ℕ) : ℤ) - 1)) + (c.ed : ℤ) * ((k + 2 : ℕ) : ℤ) = 0 by push_cast; ring, zpow_zero]
  obtain ⟨M, hMd⟩ : ∃ M, M = limbsVal c.B (x.data.take x.prec) := ⟨_, rfl⟩
  rw [← hMd] at hM hxa a3 a4
  have hηM : 1 ≤ eta c x.prec * M := by
    rw [← hηB]; exact mul_le_mul_of_nonneg_left hM hη.le
  have hW : (0 : ℚ) < 10 ^ x.lexpp c x.prec := p10_pos _
  by_cases hh : (s.1 ++ x.data.drop x.prec).headD 0 = 0
  · simp only [hh, if_true] at hr
    obtain ⟨m, e1, e2, e3, e4, a, b, e5, e6, e7, e8⟩ := a4 hh
    rw [show x.prec - 2 = k + 1 by omega, show x.prec - 1 = k + 2 by omega, e1, if_neg (by omega)] at hr
    apply close m e2 e3 e4 (by rw [hr]) (by rw [hr]) (by rw [hr]) (by rw [hr]; exact dvd_sub hx.dvd (dvd_refl _)) (by rw [hr]; show x.exp - _ ≤ _; omega)
    have hre : r.exp = x.exp - c.ed := by rw [hr]
    have hL : (10 : ℚ) ^ x.lexpp c x.prec = 10 ^ r.lexpp c x.prec * c.B := by
      have := c.p10_mul_B (r.lexpp c x.prec) 1
      rw [← pow_one (c.B : ℚ), this]
      congr 1; unfold lexpp; rw [hre]; push_cast; ring
    have hw := p10_pos (r.lexpp c x.prec)
    rw [hxa, hL]
    generalize (10 : ℚ) ^ r.lexpp c x.prec = w at hw
    have f1 : ((limbsVal c.B m : ℚ) + b * c.B) * n ≤ M * c.B + a * c.B * n := by exact_mod_cast e7
    have f2 : (M : ℚ) * c.B + a * c.B * n < (limbsVal c.B m + b * c.B + 1) * n := by exact_mod_cast e8
    have hb4 : (a : ℚ) + 1 ≤ c.B := by exact_mod_cast e5
    have hb5 : (b : ℚ) + 1 ≤ c.B := by exact_mod_cast e6
    have ha0 : (0 : ℚ) ≤ a := by positivity
    have hb0 : (0 : ℚ) ≤ b := by positivity
    have hnp : (0 : ℚ) < n := by linarith
    have g1 : (limbsVal c.B m : ℚ) + b * c.B - a * c.B ≤ M * c.B / n := by
      rw [le_div_iff₀ hnp]; linarith
    have g2 : (M : ℚ) * c.B / n < limbsVal c.B m + b * c.B + 1 - a * c.B := by
      rw [div_lt_iff₀ hnp]; linarith
    have g3 : |(limbsVal c.B m : ℚ) - M * c.B / n| ≤ c.B * c.B := by
      have u1 : (a : ℚ) * c.B ≤ (c.B - 1) * c.B := mul_le_mul_of_nonneg_right (by linarith) (by linarith)
      have u2 : (b : ℚ) * c.B ≤ (c.B - 1) * c.B := mul_le_mul_of_nonneg_right (by linarith) (by linarith)
      have u3 : 0 ≤ (a : ℚ) * c.B := by positivity
      have u4 : 0 ≤ (b : ℚ) * c.B := by positivity
      rw [abs_le]; constructor <;> linarith
    have t1 : (limbsVal c.B m : ℚ) * w - M * (w * c.B) / n = (limbsVal c.B m - M * c.B / n) * w := by ring
    rw [t1, abs_mul, abs_of_pos hw]
    have t2 := mul_le_mul_of_nonneg_right g3 hw.le
    have t3 : w * c.B / n ≤ w * c.B := div_le_self (by positivity) (by linarith)
    have t4 : 2 * n * c.B * eta c x.prec * (M * (w * c.B) / n) = 2 * (c.B * c.B) * w * (eta c x.prec * M) := by field_simp
    rw [t4]
    have t5 : 2 * ((c.B : ℚ) * c.B) * w * 1 ≤ 2 * (c.B * c.B) * w * (eta c x.prec * M) := mul_le_mul_of_nonneg_left hηM (by positivity)
    have t6 : 100 * ((c.B : ℚ) * w) ≤ c.B * (c.B * w) := mul_le_mul_of_nonneg_right hBq (by positivity)
    have t7 : 100 * w ≤ c.B * w := mul_le_mul_of_nonneg_right hBq hw.le
    linarith
  · simp only [hh, if_false] at hr
    obtain ⟨b3, b4⟩ := a3 hh
    rw [if_neg (by omega)] at hr
    have hge : c.B ^ (k + 2) ≤ limbsVal c.B s.1 := by
      by_contra hlt
      push Not at hlt
      apply hh
      cases hs1 : s.1 with
      | nil => rw [hs1] at a1; simp at a1
      | cons a as =>
        rw [List.cons_append, List.headD_cons]
        by_contra h0
        rw [hs1, limbsVal_cons] at hlt
        rw [hs1, List.length_cons] at a1
        rw [show as.length = k + 2 by omega] at hlt
        have : 1 * c.B ^ (k + 2) ≤ a * c.B ^ (k + 2) := Nat.mul_le_mul_right _ (by omega)
        omega
    apply close s.1 a1 a2 hge (by rw [hr]) (by rw [hr]) (by rw [hr]) (by rw [hr]; exact hx.dvd) (by rw [hr])
    have hre : r.exp = x.exp := by rw [hr]
    have hL : r.lexpp c x.prec = x.lexpp c x.prec := by unfold lexpp; rw [hre]
    rw [hL, hxa]
    have hw := hW
    generalize (10 : ℚ) ^ x.lexpp c x.prec = w at hw
    have f1 : (limbsVal c.B s.1 : ℚ) * n ≤ M := by exact_mod_cast b3
    have f2 : (M : ℚ) < (limbsVal c.B s.1 + 1) * n := by exact_mod_cast b4
    have hnp : (0 : ℚ) < n := by linarith
    have g1 : (limbsVal c.B s.1 : ℚ) ≤ M / n := by rw [le_div_iff₀ hnp]; linarith
    have g2 : (M : ℚ) / n < limbsVal c.B s.1 + 1 := by rw [div_lt_iff₀ hnp]; linarith
    have g3 : |(limbsVal c.B s.1 : ℚ) - M / n| ≤ 1 := by rw [abs_le]; constructor <;> linarith
    have t1 : (limbsVal c.B s.1 : ℚ) * w - M * w / n = (limbsVal c.B s.1 - M / n) * w := by ring
    rw [t1, abs_mul, abs_of_pos hw]
    have t2 := mul_le_mul_of_nonneg_right g3 hw.le
    have t3 : w / n ≤ w := div_le_self hw.le (by linarith)
    have t4 : 2 * n * c.B * eta c x.prec * (M * w / n) = 2 * c.B * w * (eta c x.prec * M) := by field_simp
    rw [t4]
    have t5 : 2 * (c.B : ℚ) * w * 1 ≤ 2 * c.B * w * (eta c x.prec * M) := mul_le_mul_of_nonneg_left hηM (by positivity)
    have t7 : 100 * w ≤ c.B * w := mul_le_mul_of_nonneg_right hBq hw.le
    linarith

end WD
