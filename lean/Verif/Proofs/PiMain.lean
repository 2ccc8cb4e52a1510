import Verif.Proofs.PiLoop
import Verif.Proofs.FloatConv
import Mathlib.Analysis.Real.Pi.Bounds
/-
  `calc_pi`: the loop as a whole, and the final division.
-/
namespace WD
open DW Real

theorem agmGoal_nonneg (c : Cfg) : 0 ≤ agmGoal c := by unfold agmGoal; omega

/-- The goal squared is below the error of one division. -/
theorem goal_sq (c : Cfg) : ((10 : ℝ) ^ (-agmGoal c)) ^ 2 ≤ (agmDelta c : ℝ) / 10 ^ 9 := by
  have hed8 : c.ed ≤ 8 := by unfold Cfg.ed; cases c.L <;> decide
  have hδ : (agmDelta c : ℝ) = 10 ^ (-((c.digits10 : ℤ) + c.ed)) := by
    unfold agmDelta; push_cast; rw [zpow_neg, one_div, ← zpow_natCast]; push_cast; rfl
  rw [hδ, show (10 : ℝ) ^ 9 = 10 ^ (9 : ℤ) by norm_cast, ← zpow_natCast, ← zpow_mul, ← zpow_sub₀ (by norm_num)]
  refine zpow_le_zpow_right₀ (by norm_num) ?_
  unfold agmGoal
  push_cast
  omega

theorem PiInv.setT {c : Cfg} {k : ℕ} {st : PiState} (i : PiInv c k st) (t : DW) : PiInv c k { st with t := t } :=
  ⟨i.fa, i.fb, i.fs, i.a1, i.a2, i.b1, i.b2, i.s1, i.p1⟩

theorem PiInv.pw {c : Cfg} (h : AgmOk c) {k : ℕ} (hk : k + 1 ≤ 48) {st : PiState} (i : PiInv c (k + 1) st) :
    4 / 10 ≤ st.p.val c ∧ st.p.val c ≤ 11 / 10 ∧ Full c (addAssign c st.p st.bB) ∧
    |(addAssign c st.p st.bB).val c - (st.p.val c + st.bB.val c)| ≤ 2 * mulEps c := by
  obtain ⟨d0, d1⟩ := agmDelta_small h
  obtain ⟨fp, hp⟩ := i.p1 (by omega)
  obtain ⟨⟨a1, a2⟩, ⟨b1, b2⟩, -⟩ := i.ranges h hk
  have hμ := mulEps_pos c
  have d9 : agmDelta c ≤ 1 / 10 ^ 9 := by
    have : ((agmDelta c : ℚ) : ℝ) ≤ ((1 / 10 ^ 9 : ℚ) : ℝ) := by push_cast; exact le_trans d1 (by norm_num)
    exact_mod_cast this
  have hpQ : |st.p.val c - st.a.val c ^ 2| ≤ 2 / 100 * agmDelta c := by
    have : ((|st.p.val c - st.a.val c ^ 2| : ℚ) : ℝ) ≤ ((2 / 100 * agmDelta c : ℚ) : ℝ) := by push_cast; exact hp
    exact_mod_cast this
  obtain ⟨p1, p2⟩ := abs_le.mp hpQ
  have hP1 : 4 / 10 ≤ st.p.val c := by nlinarith
  have hP2 : st.p.val c ≤ 11 / 10 := by nlinarith
  obtain ⟨f1, e1, -⟩ := add_op fp i.fb
  rw [abs_of_pos (show 0 < st.p.val c by linarith), abs_of_pos (show 0 < st.bB.val c by linarith)] at e1
  exact ⟨hP1, hP2, f1, le_trans e1 (by nlinarith)⟩

theorem PiInv.nextT {c : Cfg} {est : DW → DW} {fdig : ℕ} (h : AgmOk c) {k : ℕ} (hk : k + 1 ≤ 48) {st : PiState}
    (i : PiInv c (k + 1) st) : PiT c { st with t := divULL c est fdig (addAssign c st.p st.bB) 4 } := by
  obtain ⟨d0, d1⟩ := agmDelta_small h
  obtain ⟨fp, hp⟩ := i.p1 (by omega)
  obtain ⟨⟨a1, a2⟩, ⟨b1, b2⟩, -⟩ := i.ranges h hk
  have hμ := mulEps_pos c
  have hδ := agmDelta_pos c
  have hμδ := mulEps_delta c
  have d9 : agmDelta c ≤ 1 / 10 ^ 9 := by
    have : ((agmDelta c : ℚ) : ℝ) ≤ ((1 / 10 ^ 9 : ℚ) : ℝ) := by push_cast; exact le_trans d1 (by norm_num)
    exact_mod_cast this
  have hpQ : |st.p.val c - st.a.val c ^ 2| ≤ 2 / 100 * agmDelta c := by
    have : ((|st.p.val c - st.a.val c ^ 2| : ℚ) : ℝ) ≤ ((2 / 100 * agmDelta c : ℚ) : ℝ) := by push_cast; exact hp
    exact_mod_cast this
  obtain ⟨p1, p2⟩ := abs_le.mp hpQ
  have hP1 : 4 / 10 ≤ st.p.val c := by nlinarith
  have hP2 : st.p.val c ≤ 11 / 10 := by nlinarith
  obtain ⟨f1, e1, -⟩ := add_op fp i.fb
  rw [abs_of_pos (show 0 < st.p.val c by linarith), abs_of_pos (show 0 < st.bB.val c by linarith)] at e1
  have e1' : |(addAssign c st.p st.bB).val c - (st.p.val c + st.bB.val c)| ≤ 2 * mulEps c := le_trans e1 (by nlinarith)
  obtain ⟨e2, e3⟩ := abs_le.mp e1'
  generalize addAssign c st.p st.bB = w at *
  obtain ⟨f2, e4⟩ := div_moderate (est := est) (fdig := fdig) h f1 (by linarith) (by linarith) (n := 4) (by norm_num) (by norm_num)
  push_cast at e4
  obtain ⟨e5, e6⟩ := abs_le.mp e4
  refine ⟨f2, ?_⟩
  show |((divULL c est fdig w 4).val c : ℝ) - ((st.a.val c : ℝ) ^ 2 + (st.bB.val c : ℝ)) / 4| ≤ 103 / 100 * (agmDelta c : ℝ)
  have : |(divULL c est fdig w 4).val c - (st.a.val c ^ 2 + st.bB.val c) / 4| ≤ 103 / 100 * agmDelta c := by
    rw [abs_le]; constructor <;> linarith
  have := (Rat.cast_le (K := ℝ)).mpr this
  push_cast at this
  exact this

theorem piLoop_spec {c : Cfg} {estS : DW → DW × DW} {est : DW → DW} {fdig : ℕ} (h : AgmOk c) (hf : 6 ≤ fdig)
    (hS : PiSqrtOk c estS fdig) : ∀ (fuel k : ℕ) (st : PiState), k + fuel = 48 → PiInv c k st → PiT c st →
    let q := piLoop c estS est fdig fuel k st
    let n := k + q.2.length
    n ≤ 48 ∧ (0 < fuel → k < n) ∧ PiInv c n q.1 ∧
    (n = 48 ∨ 2 ^ n * agmC 1 (√(1 / 2)) n ≤ (10 : ℝ) ^ (-agmGoal c) + 42 / 10 * 2 ^ n * (agmDelta c : ℝ)) := by
  intro fuel
  induction fuel with
  | zero =>
    intro k st hk i _
    simp only [piLoop, List.length_nil, Nat.add_zero]
    exact ⟨by omega, fun h => absurd h (lt_irrefl _), i, Or.inl (by omega)⟩
  | succ fuel ih =>
    intro k st hk i ht
    obtain ⟨i', f, hterm, -⟩ := i.round (est := est) h hf hS (by omega : k < 48) ht
    simp only [piLoop]
    split
    · next hb =>
      simp only [List.length_singleton]
      refine ⟨by omega, fun _ => by omega, i', Or.inr ?_⟩
      have hm := agmDigits_gt f (agmGoal_nonneg c) hb
      have hm' : |((piRound c estS est fdig k st).2.val c : ℝ)| ≤ (10 : ℝ) ^ (-agmGoal c) := by
        have := (Rat.cast_le (K := ℝ)).mpr hm.le
        push_cast at this; exact this
      obtain ⟨x1, x2⟩ := abs_le.mp hm'
      obtain ⟨x3, x4⟩ := abs_le.mp hterm
      linarith
    · next hb =>
      have := ih (k + 1) _ (by omega) (i'.setT _) (i'.nextT (est := est) (fdig := fdig) h (by omega))
      simp only [List.length_cons] at this ⊢
      rw [show k + ((piLoop c estS est fdig fuel (k + 1) { (piRound c estS est fdig k st).1 with
        t := divULL c est fdig (addAssign c (piRound c estS est fdig k st).1.p (piRound c estS est fdig k st).1.bB) 4 }).2.length + 1) =
        k + 1 + (piLoop c estS est fdig fuel (k + 1) { (piRound c estS est fdig k st).1 with
        t := divULL c est fdig (addAssign c (piRound c estS est fdig k st).1.p (piRound c estS est fdig k st).1.bB) 4 }).2.length by ring]
      obtain ⟨y1, -, y3, y4⟩ := this
      exact ⟨y1, fun _ => by omega, y3, y4⟩

theorem piInit_inv {c : Cfg} {est : DW → DW} {fdig : ℕ} (h : AgmOk c) : PiInv c 0 (piInit c est fdig) ∧ PiT c (piInit c est fdig) := by
  obtain ⟨d0, d1⟩ := agmDelta_small h
  obtain ⟨o1, o2, -⟩ := of_unsigned_exact c 32 1 (by norm_num) (by norm_num)
  obtain ⟨t1, t2, -⟩ := of_unsigned_exact c 32 3 (by norm_num) (by norm_num)
  have hN := h.N9
  have hpow : (3 : ℕ) < 10 ^ (c.ed * c.N) := by
    calc (3 : ℕ) < 10 ^ 1 := by norm_num
      _ ≤ _ := Nat.pow_le_pow_right (by norm_num) (by omega)
  have o3 := o2 (by omega)
  have t3 := t2 hpow
  have hsq : √(1 / 2 : ℝ) ^ 2 = 1 / 2 := Real.sq_sqrt (by norm_num)
  obtain ⟨f, e⟩ := div_moderate (est := est) (fdig := fdig) h t1 (by rw [t3]; norm_num) (by rw [t3]; norm_num) (n := 8) (by norm_num) (by norm_num)
  rw [t3] at e
  have e' := (Rat.cast_le (K := ℝ)).mpr e
  push_cast at e'
  have hh := half_val c
  refine ⟨⟨o1, half_full c, half_full c, ?_, ?_, ?_, ?_, ?_, fun h => absurd h (lt_irrefl _)⟩, f, ?_⟩
  · show _ ≤ (((ofUnsigned c 32 1).val c : ℚ) : ℝ)
    rw [o3]; simp [agmSeq]
  · show (((ofUnsigned c 32 1).val c : ℚ) : ℝ) ≤ _
    rw [o3]; simp [agmSeq]
  · show _ ≤ (((half c).val c : ℚ) : ℝ)
    rw [hh]; simp only [agmSeq]; rw [hsq]; norm_num
  · show (((half c).val c : ℚ) : ℝ) ≤ _
    rw [hh]; simp only [agmSeq]; rw [hsq]; norm_num
  · show |(((half c).val c : ℚ) : ℝ) - _| ≤ _
    rw [hh]; unfold glSum; norm_num; exact (agmDelta_pos c).le
  · show |(((divULL c est fdig (ofUnsigned c 32 3) 8).val c : ℚ) : ℝ) - ((((ofUnsigned c 32 1).val c : ℚ) : ℝ) ^ 2 + (((half c).val c : ℚ) : ℝ)) / 4| ≤ _
    rw [o3, hh]
    norm_num at e' ⊢
    linarith

/-- The remainder of the formula after the last round is far below the rounding errors. -/
theorem pi_tail {c : Cfg} (h : AgmOk c) {n : ℕ} (hn : n ≤ 48)
    (hb : n = 48 ∨ 2 ^ n * agmC 1 (√(1 / 2)) n ≤ (10 : ℝ) ^ (-agmGoal c) + 42 / 10 * 2 ^ n * (agmDelta c : ℝ)) :
    2 ^ n * ((agmSeq 1 (√(1 / 2)) n).1 - (agmSeq 1 (√(1 / 2)) n).2) ^ 2 ≤ (agmDelta c : ℝ) / 10 ^ 6 := by
  obtain ⟨d0, d1⟩ := agmDelta_small h
  obtain ⟨g1, g2, g3, g4, g5⟩ := agm_half_bounds n
  have hp1 : (1 : ℝ) ≤ 2 ^ n := one_le_pow₀ (by norm_num)
  have hp2 : (2 : ℝ) ^ n ≤ 2 ^ 48 := pow_le_pow_right₀ (by norm_num) hn
  have hD0 := agm_half_diff_nonneg n
  rcases hb with h48 | hb
  · have hc := agm_half_conv n
    have hok := h.ok.1
    have hδl : (1 : ℝ) / 10 ^ 14400 ≤ agmDelta c := by
      have : (1 : ℚ) / 10 ^ 14400 ≤ agmDelta c := by
        unfold agmDelta
        refine one_div_le_one_div_of_le (by positivity) (pow_le_pow_right₀ (by norm_num) ?_)
        have h1 := c.digits_le
        have hed8 : c.ed ≤ 8 := by unfold Cfg.ed; cases c.L <;> decide
        have : c.ed * (c.N - 1) ≤ 8 * 1792 := Nat.mul_le_mul hed8 (by omega)
        have := c.ed_pos
        omega
      have h' := (Rat.cast_le (K := ℝ)).mpr this
      push_cast at h'; exact h'
    have hz : ((1 : ℝ) / 16) ^ (2 ^ n) ≤ 1 / 10 ^ 19656 := by
      have a1 : ((1 : ℝ) / 16) ^ (2 ^ n) ≤ (1 / 16) ^ 16380 :=
        pow_le_pow_of_le_one (by norm_num) (by norm_num) (by rw [h48]; norm_num)
      refine le_trans a1 ?_
      rw [show (16380 : ℕ) = 5 * 3276 by norm_num, pow_mul, show (19656 : ℕ) = 6 * 3276 by norm_num, pow_mul, one_div_pow,
        ← one_div_pow (((10 : ℝ)) ^ 6)]
      exact pow_le_pow_left₀ (by positivity) (by norm_num) _
    have hz0 : (0 : ℝ) ≤ (1 / 16) ^ (2 ^ n) := by positivity
    generalize ((1 : ℝ) / 16) ^ (2 ^ n) = z at *
    generalize (agmSeq 1 (√(1 / 2)) n).1 - (agmSeq 1 (√(1 / 2)) n).2 = D at *
    have hD : D ≤ 56 / 10 * (1 / 10 ^ 19656) := le_trans hc (by gcongr)
    have hD2 : D ^ 2 ≤ (56 / 10 * (1 / 10 ^ 19656)) ^ 2 := pow_le_pow_left₀ hD0 hD 2
    calc 2 ^ n * D ^ 2 ≤ 2 ^ 48 * (56 / 10 * (1 / 10 ^ 19656)) ^ 2 := by gcongr
      _ = (2 ^ 48 * (56 / 10) ^ 2) * (1 / 10 ^ 19656) ^ 2 := by ring
      _ ≤ 10 ^ 20 * (1 / 10 ^ 19656) ^ 2 := by gcongr; norm_num
      _ ≤ 1 / 10 ^ 14400 / 10 ^ 6 := by
        rw [div_pow, one_pow, ← pow_mul, div_div, ← pow_add, mul_one_div, div_le_div_iff₀ (by positivity) (by positivity), ← pow_add, one_mul]
        exact pow_le_pow_right₀ (by norm_num) (by norm_num)
      _ ≤ _ := by gcongr
  · have hC : agmC 1 (√(1 / 2)) n = ((agmSeq 1 (√(1 / 2)) n).1 - (agmSeq 1 (√(1 / 2)) n).2) * ((agmSeq 1 (√(1 / 2)) n).1 + (agmSeq 1 (√(1 / 2)) n).2) := by
      unfold agmC; ring
    rw [hC] at hb
    have hs : (14 : ℝ) / 10 ≤ (agmSeq 1 (√(1 / 2)) n).1 + (agmSeq 1 (√(1 / 2)) n).2 := by linarith
    have hg := goal_sq c
    have hG0 : (0 : ℝ) < 10 ^ (-agmGoal c) := by positivity
    generalize (10 : ℝ) ^ (-agmGoal c) = G at *
    generalize (agmSeq 1 (√(1 / 2)) n).1 + (agmSeq 1 (√(1 / 2)) n).2 = T at *
    generalize (agmSeq 1 (√(1 / 2)) n).1 - (agmSeq 1 (√(1 / 2)) n).2 = D at *
    generalize (agmDelta c : ℝ) = δ at *
    have hpd : (2 : ℝ) ^ n * δ ≤ 2 ^ 48 * δ := by gcongr
    have hpd0 : 0 ≤ (2 : ℝ) ^ n * δ := by positivity
    have h1 : 2 ^ n * D ≤ G + 42 / 10 * (2 ^ 48 * δ) := by
      have : 2 ^ n * D * 1 ≤ 2 ^ n * D * T := mul_le_mul_of_nonneg_left (by linarith) (by positivity)
      nlinarith
    have h0 : 0 ≤ 2 ^ n * D := by positivity
    have h2 : (2 ^ n * D) ^ 2 ≤ (G + 42 / 10 * (2 ^ 48 * δ)) ^ 2 := pow_le_pow_left₀ h0 h1 2
    have h3 : 2 ^ n * D ^ 2 ≤ (2 ^ n * D) ^ 2 := by
      have : (2 ^ n * D) ^ 2 = 2 ^ n * (2 ^ n * D ^ 2) := by ring
      rw [this]
      have h9 : 0 ≤ 2 ^ n * D ^ 2 := by positivity
      nlinarith
    have h4 : (G + 42 / 10 * (2 ^ 48 * δ)) ^ 2 ≤ 2 * G ^ 2 + 2 * (42 / 10 * (2 ^ 48 * δ)) ^ 2 := by
      nlinarith [sq_nonneg (G - 42 / 10 * (2 ^ 48 * δ))]
    have h5 : (42 / 10 * (2 ^ 48 * δ)) ^ 2 ≤ δ / 10 ^ 9 := by
      have : (42 / 10 * (2 ^ 48 * δ)) ^ 2 = ((42 / 10) ^ 2 * (2 ^ 48) ^ 2 * δ) * δ := by ring
      rw [this]
      have h6 : (42 / 10) ^ 2 * (2 ^ 48) ^ 2 * δ ≤ 1 / 10 ^ 9 := by
        calc (42 / 10 : ℝ) ^ 2 * (2 ^ 48) ^ 2 * δ ≤ (42 / 10 : ℝ) ^ 2 * (2 ^ 48) ^ 2 * (1 / 10 ^ 43) := by gcongr
          _ ≤ _ := by norm_num
      calc _ ≤ 1 / 10 ^ 9 * δ := by gcongr
        _ = _ := by ring
    have : 2 * (δ / 10 ^ 9) + 2 * (δ / 10 ^ 9) ≤ δ / 10 ^ 6 := by
      norm_num at *; linarith
    linarith

/-- The start value of the reciprocal is good for the numbers that occur. -/
def PiInvOk (c : Cfg) (est : DW → DW) (fdig : ℕ) : Prop :=
  ∀ x : DW, Full c x → 4 / 10 ≤ x.val c → x.val c ≤ 6 / 10 → StartOk c fdig (est (unsigned x)) |x.val c|

theorem pi_num {x y ρ a b δ : ℝ} (y0 : 0 ≤ y) (g2 : y ≤ x) (g6 : x ≤ 8555 / 10000) (hρ0 : 0 ≤ ρ) (hρ1 : ρ ≤ 1 / 10 ^ 6)
    (hsq : ρ ^ 2 ≤ 1 / 100 * δ) (hδ : 0 ≤ δ) (ia1 : (1 - ρ) * x ≤ a) (ia2 : a ≤ (1 + ρ) * x)
    (ib1 : (1 - ρ) ^ 2 * y ^ 2 ≤ b) (ib2 : b ≤ (1 + ρ) ^ 2 * y ^ 2) :
    |(a ^ 2 + b) - (x ^ 2 + y ^ 2)| ≤ 293 / 100 * ρ + 2 / 10 * δ := by
  have hx0 : 0 ≤ x := le_trans y0 g2
  have h1ρ : 0 ≤ 1 - ρ := by norm_num at hρ1; linarith
  have ha0 : 0 ≤ a := le_trans (mul_nonneg h1ρ hx0) ia1
  have hx2 : a ^ 2 ≤ ((1 + ρ) * x) ^ 2 := pow_le_pow_left₀ ha0 ia2 2
  have hx1 : ((1 - ρ) * x) ^ 2 ≤ a ^ 2 := pow_le_pow_left₀ (mul_nonneg h1ρ hx0) ia1 2
  have hx : x ^ 2 ≤ (8555 / 10000) ^ 2 := pow_le_pow_left₀ hx0 g6 2
  have hx' : x ^ 2 ≤ 7319 / 10000 := le_trans hx (by norm_num)
  have hy : y ^ 2 ≤ x ^ 2 := pow_le_pow_left₀ y0 g2 2
  have k1 : ρ * (x ^ 2 + y ^ 2) ≤ ρ * (14638 / 10000) := mul_le_mul_of_nonneg_left (by linarith) hρ0
  have k2 : ρ ^ 2 * (x ^ 2 + y ^ 2) ≤ 1 / 100 * δ * 2 := mul_le_mul hsq (by linarith) (by positivity) (by positivity)
  have hxy0 : 0 ≤ ρ ^ 2 * (x ^ 2 + y ^ 2) := by positivity
  have E1 : (1 + ρ) ^ 2 * y ^ 2 + ((1 + ρ) * x) ^ 2 = (x ^ 2 + y ^ 2) + 2 * (ρ * (x ^ 2 + y ^ 2)) + ρ ^ 2 * (x ^ 2 + y ^ 2) := by ring
  have E2 : (1 - ρ) ^ 2 * y ^ 2 + ((1 - ρ) * x) ^ 2 = (x ^ 2 + y ^ 2) - 2 * (ρ * (x ^ 2 + y ^ 2)) + ρ ^ 2 * (x ^ 2 + y ^ 2) := by ring
  rw [abs_le]; constructor <;> linarith

theorem pi_mean {x y M : ℝ} (y0 : 0 ≤ y) (x0 : 0 ≤ x) (M0 : 0 ≤ M) (N1 : √(x * y) ≤ M) (N2 : M ≤ (x + y) / 2) {E : ℝ}
    (hD : (x - y) ^ 2 ≤ E) : |(x ^ 2 + y ^ 2) - 2 * M ^ 2| ≤ E := by
  have h1 : x * y ≤ M ^ 2 := by
    have := pow_le_pow_left₀ (Real.sqrt_nonneg _) N1 2
    rwa [Real.sq_sqrt (mul_nonneg x0 y0)] at this
  have h2 : M ^ 2 ≤ ((x + y) / 2) ^ 2 := pow_le_pow_left₀ M0 N2 2
  have E1 : ((x + y) / 2) ^ 2 = (x ^ 2 + y ^ 2) / 2 - (x - y) ^ 2 / 4 := by ring
  have E2 : x * y = (x ^ 2 + y ^ 2) / 2 - (x - y) ^ 2 / 2 := by ring
  have := sq_nonneg (x - y)
  rw [abs_le]; constructor <;> linarith

set_option maxHeartbeats 1000000 in
/-- The computed value of pi. n is the number of rounds. -/
theorem calcPi_spec {c : Cfg} {estS : DW → DW × DW} {est : DW → DW} {fdig : ℕ} (h : AgmOk c) (hf : 6 ≤ fdig)
    (hS : PiSqrtOk c estS fdig) (hI : PiInvOk c est fdig) :
    let r := calcPi c estS est fdig
    let n := r.2.length
    Full c r.1 ∧ 1 ≤ n ∧ n ≤ 48 ∧ |(r.1.val c : ℝ) - π| ≤ (61 * 2 ^ n + 34 * n) * (agmDelta c : ℝ) := by
  intro r n
  obtain ⟨d0, d1⟩ := agmDelta_small h
  obtain ⟨i0, t0⟩ := piInit_inv (est := est) (fdig := fdig) h
  obtain ⟨n1, n2, i, hb⟩ := piLoop_spec (est := est) h hf hS 48 0 _ (by norm_num) i0 t0
  have hr : r = (divAssign c est fdig (addAssign c (piLoop c estS est fdig 48 0 (piInit c est fdig)).1.p
      (piLoop c estS est fdig 48 0 (piInit c est fdig)).1.bB) (piLoop c estS est fdig 48 0 (piInit c est fdig)).1.s,
      (piLoop c estS est fdig 48 0 (piInit c est fdig)).2) := rfl
  have hn : n = r.2.length := rfl
  clear_value n
  rw [hr] at hn
  rw [zero_add] at n1 n2 i hb
  simp only at hn
  rw [← hn] at n1 n2 i hb
  have hn1 : 1 ≤ n := n2 (by norm_num)
  rw [hr]
  clear_value r
  generalize (piLoop c estS est fdig 48 0 (piInit c est fdig)).1 = st at *
  suffices hsuf : Full c (divAssign c est fdig (addAssign c st.p st.bB) st.s) ∧ |((divAssign c est fdig (addAssign c st.p st.bB) st.s).val c : ℝ) - π| ≤ (61 * 2 ^ n + 34 * n) * (agmDelta c : ℝ) from
    ⟨hsuf.1, hn1, n1, hsuf.2⟩
  · skip
    obtain ⟨m, rfl⟩ : ∃ m, n = m + 1 := ⟨n - 1, by omega⟩
    obtain ⟨fp, hp⟩ := i.p1 (by omega)
    obtain ⟨⟨a1, a2⟩, ⟨b1, b2⟩, -⟩ := i.ranges h n1
    have tail := pi_tail h n1 hb
    obtain ⟨M, hM⟩ := gauss_legendre
    obtain ⟨M1, M2, M3⟩ := hM (m + 1)
    have MB := (hM 1).1
    have hπ1 := Real.pi_gt_d2
    have hπ2 := Real.pi_lt_d4
    have hq0 : (0 : ℝ) < √(1 / 2) := Real.sqrt_pos.mpr (by norm_num)
    have hq2 : √(1 / 2 : ℝ) ≤ 7072 / 10000 := by rw [Real.sqrt_le_left (by norm_num)]; norm_num
    have hq1 : (7071 : ℝ) / 10000 ≤ √(1 / 2) := by apply Real.le_sqrt_of_sq_le; norm_num
    rw [agmC_succ hq0 (by linarith)] at M3
    change |2 * M ^ 2 - π * glSum (m + 1)| ≤ _ at M3
    have hM84 : (8408 : ℝ) / 10000 ≤ M := by
      refine le_trans ?_ MB
      show _ ≤ √(1 * √(1 / 2))
      apply Real.le_sqrt_of_sq_le; rw [one_mul]; norm_num at hq1 ⊢; linarith
    obtain ⟨g1, g2, g3, -, g5⟩ := agm_half_bounds (m + 1)
    have g6 : (agmSeq 1 (√(1 / 2)) (m + 1)).1 ≤ 8555 / 10000 := by
      have := (agm_half_bounds m).2.2.2.1
      show ((agmSeq 1 (√(1 / 2)) m).1 + (agmSeq 1 (√(1 / 2)) m).2) / 2 ≤ _
      linarith
    have hp1 : (1 : ℝ) ≤ 2 ^ (m + 1) := one_le_pow₀ (by norm_num)
    have hp48 : (2 : ℝ) ^ (m + 1) ≤ 2 ^ 48 := pow_le_pow_right₀ (by norm_num) n1
    have hnq : ((m + 1 : ℕ) : ℝ) ≤ 48 := by exact_mod_cast n1
    have hnq1 : (1 : ℝ) ≤ ((m + 1 : ℕ) : ℝ) := by exact_mod_cast hn1
    have e2 : (2 : ℝ) ^ (m + 1 + 2) * (((agmSeq 1 (√(1 / 2)) (m + 1)).1 - (agmSeq 1 (√(1 / 2)) (m + 1)).2) / 2) ^ 2 =
        2 ^ (m + 1) * ((agmSeq 1 (√(1 / 2)) (m + 1)).1 - (agmSeq 1 (√(1 / 2)) (m + 1)).2) ^ 2 := by rw [pow_add]; ring
    rw [e2] at M3
    have hs := i.s1
    have e3 : (2 : ℝ) ^ (m + 1 + 1) = 2 * 2 ^ (m + 1) := by ring
    rw [e3] at hs
    have hδ2 : 2 ^ (m + 1) * (agmDelta c : ℝ) ≤ 1 / 10 ^ 28 := by
      calc 2 ^ (m + 1) * (agmDelta c : ℝ) ≤ 2 ^ 48 * (1 / 10 ^ 43) := by gcongr
        _ ≤ _ := by norm_num
    have hδ20 : 0 < 2 ^ (m + 1) * (agmDelta c : ℝ) := by positivity
    have htl0 : 0 ≤ 2 ^ (m + 1) * ((agmSeq 1 (√(1 / 2)) (m + 1)).1 - (agmSeq 1 (√(1 / 2)) (m + 1)).2) ^ 2 := by positivity
    have hM3' : |2 * M ^ 2 - π * glSum (m + 1)| ≤ 4 * ((agmDelta c : ℝ) / 10 ^ 6) := by
      refine le_trans M3 ?_
      calc π * _ ≤ 4 * (2 ^ (m + 1) * ((agmSeq 1 (√(1 / 2)) (m + 1)).1 - (agmSeq 1 (√(1 / 2)) (m + 1)).2) ^ 2) := by gcongr; linarith
        _ ≤ _ := by gcongr
    obtain ⟨x1, x2⟩ := abs_le.mp hM3'
    obtain ⟨x3, x4⟩ := abs_le.mp hs
    have hM2 : (14138 : ℝ) / 10000 ≤ 2 * M ^ 2 := by
      have : ((8408 : ℝ) / 10000) ^ 2 ≤ M ^ 2 := pow_le_pow_left₀ (by norm_num) hM84 2
      norm_num at this ⊢; linarith
    have hMu : M ≤ 8555 / 10000 := le_trans M2 g6
    have hM2u : 2 * M ^ 2 ≤ 1464 / 1000 := by
      have : M ^ 2 ≤ ((8555 : ℝ) / 10000) ^ 2 := pow_le_pow_left₀ (by linarith) hMu 2
      norm_num at this ⊢; linarith
    have hd30 : (agmDelta c : ℝ) ≤ 1 / 10 ^ 28 := le_trans d1 (by norm_num)
    have hsl : (449 : ℝ) / 1000 ≤ (st.s.val c : ℝ) := by
      have : (4499 : ℝ) / 10000 ≤ glSum (m + 1) := by
        by_contra hc
        push Not at hc
        have : π * glSum (m + 1) ≤ π * (4499 / 10000) := by gcongr
        norm_num at x2 hd30 hπ2; linarith
      norm_num at x3 hδ2; linarith
    have hsu : (st.s.val c : ℝ) ≤ 5 / 10 := by
      have : glSum (m + 1) ≤ 49 / 100 := by
        by_contra hc
        push Not at hc
        have : π * (49 / 100) ≤ π * glSum (m + 1) := by gcongr
        norm_num at x1 hd30 hπ1; linarith
      norm_num at x4 hδ2; linarith
    have hslQ : 449 / 1000 ≤ st.s.val c := by
      have : ((449 / 1000 : ℚ) : ℝ) ≤ (st.s.val c : ℝ) := by push_cast; exact hsl
      exact_mod_cast this
    have hsuQ : st.s.val c ≤ 5 / 10 := by
      have : (st.s.val c : ℝ) ≤ ((5 / 10 : ℚ) : ℝ) := by push_cast; exact hsu
      exact_mod_cast this
    have hμ := mulEps_pos c
    have hδ := agmDelta_pos c
    have hμδ := mulEps_delta c
    have d9 : agmDelta c ≤ 1 / 10 ^ 9 := by
      have : ((agmDelta c : ℚ) : ℝ) ≤ ((1 / 10 ^ 9 : ℚ) : ℝ) := by push_cast; exact le_trans d1 (by norm_num)
      exact_mod_cast this
    have hpQ : |st.p.val c - st.a.val c ^ 2| ≤ 2 / 100 * agmDelta c := by
      have : ((|st.p.val c - st.a.val c ^ 2| : ℚ) : ℝ) ≤ ((2 / 100 * agmDelta c : ℚ) : ℝ) := by push_cast; exact hp
      exact_mod_cast this
    obtain ⟨p1, p2⟩ := abs_le.mp hpQ
    obtain ⟨hP1, hP2, f1, u1'⟩ := i.pw h n1
    obtain ⟨u2, u3⟩ := abs_le.mp u1'
    generalize addAssign c st.p st.bB = w at *
    have hbig := h.big
    have hwabs : |w.val c| = w.val c := abs_of_pos (by linarith)
    have hsabs : |st.s.val c| = st.s.val c := abs_of_pos (by linarith)
    obtain ⟨-, w1, w2⟩ := exp_moderate f1 (by rw [hwabs]; linarith) (by rw [hwabs]; linarith)
    obtain ⟨-, s1, s2⟩ := exp_moderate i.fs (by rw [hsabs]; linarith) (by rw [hsabs]; linarith)
    obtain ⟨q1, q2, -, q3⟩ := div_accuracy c est fdig w st.s f1 i.fs (by linarith) (by linarith) h.ok hf (by omega) (by omega) (by omega)
      (by omega) (by omega) (hI st.s i.fs (by linarith) (by linarith))
    refine ⟨q1, ?_⟩
    have hq : w.val c / st.s.val c ≤ 5 := by rw [div_le_iff₀ (by linarith)]; linarith
    have hq0' : 0 < w.val c / st.s.val c := div_pos (by linarith) (by linarith)
    have q3' : |(divAssign c est fdig w st.s).val c - w.val c / st.s.val c| ≤ 30 * mulEps c := by
      refine le_trans q3.le ?_
      rw [abs_of_pos hq0', show (6 : ℚ) / 10 ^ (c.digits10 + 2 * c.ed) = 6 * mulEps c by unfold mulEps; ring]
      calc w.val c / st.s.val c * (6 * mulEps c) ≤ 5 * (6 * mulEps c) := by gcongr
        _ = 30 * mulEps c := by ring
    have q4 : |((divAssign c est fdig w st.s).val c : ℝ) - (w.val c : ℝ) / (st.s.val c : ℝ)| ≤ 3 / 10 * (agmDelta c : ℝ) := by
      have h1 : |(divAssign c est fdig w st.s).val c - w.val c / st.s.val c| ≤ 3 / 10 * agmDelta c := le_trans q3' (by linarith)
      have := (Rat.cast_le (K := ℝ)).mpr h1
      push_cast at this; exact this
    -- numerator
    have v1 : |(w.val c : ℝ) - ((st.p.val c : ℝ) + (st.bB.val c : ℝ))| ≤ 2 / 100 * (agmDelta c : ℝ) := by
      have h1 : |w.val c - (st.p.val c + st.bB.val c)| ≤ 2 / 100 * agmDelta c := le_trans u1' (by linarith)
      have := (Rat.cast_le (K := ℝ)).mpr h1
      push_cast at this; exact this
    have hρ0 : 0 ≤ 5 * ((m + 1 : ℕ) : ℝ) * (agmDelta c : ℝ) := by positivity
    have hρ1 : 5 * ((m + 1 : ℕ) : ℝ) * (agmDelta c : ℝ) ≤ 1 / 10 ^ 6 := by
      calc 5 * ((m + 1 : ℕ) : ℝ) * (agmDelta c : ℝ) ≤ 5 * 48 * (1 / 10 ^ 43) := by gcongr
        _ ≤ _ := by norm_num
    have ia1 := i.a1
    have ia2 := i.a2
    have ib1 := i.b1
    have ib2 := i.b2
    have v2 : |((st.a.val c : ℝ) ^ 2 + (st.bB.val c : ℝ)) - ((agmSeq 1 (√(1 / 2)) (m + 1)).1 ^ 2 + (agmSeq 1 (√(1 / 2)) (m + 1)).2 ^ 2)| ≤
        1465 / 100 * ((m + 1 : ℕ) : ℝ) * (agmDelta c : ℝ) + 2 / 10 * (agmDelta c : ℝ) := by
      have hE : 1465 / 100 * ((m + 1 : ℕ) : ℝ) * (agmDelta c : ℝ) = 293 / 100 * (5 * ((m + 1 : ℕ) : ℝ) * (agmDelta c : ℝ)) := by ring
      have hsq : (5 * ((m + 1 : ℕ) : ℝ) * (agmDelta c : ℝ)) ^ 2 ≤ 1 / 100 * (agmDelta c : ℝ) := by
        have : (5 * ((m + 1 : ℕ) : ℝ) * (agmDelta c : ℝ)) ^ 2 = (5 * ((m + 1 : ℕ) : ℝ) * (5 * ((m + 1 : ℕ) : ℝ) * (agmDelta c : ℝ))) * (agmDelta c : ℝ) := by ring
        rw [this]
        have : 5 * ((m + 1 : ℕ) : ℝ) * (5 * ((m + 1 : ℕ) : ℝ) * (agmDelta c : ℝ)) ≤ 5 * 48 * (5 * 48 * (1 / 10 ^ 43)) := by gcongr
        have h9 : (5 : ℝ) * 48 * (5 * 48 * (1 / 10 ^ 43)) ≤ 1 / 100 := by norm_num
        gcongr; linarith
      rw [hE]
      exact pi_num (by linarith) g2 g6 hρ0 hρ1 hsq d0.le ia1 ia2 ib1 ib2
    -- the mean
    have v3 : |((agmSeq 1 (√(1 / 2)) (m + 1)).1 ^ 2 + (agmSeq 1 (√(1 / 2)) (m + 1)).2 ^ 2) - 2 * M ^ 2| ≤ (agmDelta c : ℝ) / 10 ^ 6 := by
      obtain ⟨N1, N2, -⟩ := hM (m + 1 + 1)
      change √((agmSeq 1 (√(1 / 2)) (m + 1)).1 * (agmSeq 1 (√(1 / 2)) (m + 1)).2) ≤ M at N1
      change M ≤ ((agmSeq 1 (√(1 / 2)) (m + 1)).1 + (agmSeq 1 (√(1 / 2)) (m + 1)).2) / 2 at N2
      have hD : ((agmSeq 1 (√(1 / 2)) (m + 1)).1 - (agmSeq 1 (√(1 / 2)) (m + 1)).2) ^ 2 ≤ (agmDelta c : ℝ) / 10 ^ 6 := by
        exact le_trans (le_mul_of_one_le_left (sq_nonneg _) hp1) tail
      exact pi_mean (by linarith) (by linarith) (by linarith) N1 N2 hD
    -- everything together: w - π s
    have hsd : |π * glSum (m + 1) - π * (st.s.val c : ℝ)| ≤ 2702 / 100 * (2 ^ (m + 1) * (agmDelta c : ℝ)) := by
      rw [← mul_sub, abs_mul, abs_of_pos Real.pi_pos, abs_sub_comm]
      have hπ3 : π ≤ 31416 / 10000 := le_trans Real.pi_lt_d4.le (by norm_num)
      calc π * |(st.s.val c : ℝ) - glSum (m + 1)| ≤ 31416 / 10000 * (43 / 10 * (2 * 2 ^ (m + 1)) * (agmDelta c : ℝ)) := by gcongr
        _ ≤ _ := by
          rw [show 31416 / 10000 * (43 / 10 * (2 * 2 ^ (m + 1)) * (agmDelta c : ℝ)) = 31416 / 10000 * (43 / 10) * 2 * (2 ^ (m + 1) * (agmDelta c : ℝ)) by ring]
          gcongr; norm_num
    have tot : |(w.val c : ℝ) - π * (st.s.val c : ℝ)| ≤ (2702 / 100 * 2 ^ (m + 1) + 1465 / 100 * ((m + 1 : ℕ) : ℝ) + 3 / 10) * (agmDelta c : ℝ) := by
      obtain ⟨y1, y2⟩ := abs_le.mp hsd
      obtain ⟨y3, y4⟩ := abs_le.mp v1
      obtain ⟨y5, y6⟩ := abs_le.mp v2
      obtain ⟨y7, y8⟩ := abs_le.mp v3
      obtain ⟨y9, y0⟩ := abs_le.mp hp
      have hdd : (agmDelta c : ℝ) / 10 ^ 6 ≤ 1 / 100 * (agmDelta c : ℝ) := by norm_num; linarith
      rw [abs_le]; constructor <;> linarith
    have hs0 : (0 : ℝ) < st.s.val c := by linarith
    have e5 : (w.val c : ℝ) / (st.s.val c : ℝ) - π = ((w.val c : ℝ) - π * (st.s.val c : ℝ)) / (st.s.val c : ℝ) := by field_simp
    have fin : |(w.val c : ℝ) / (st.s.val c : ℝ) - π| ≤ (2702 / 100 * 2 ^ (m + 1) + 1465 / 100 * ((m + 1 : ℕ) : ℝ) + 3 / 10) * (agmDelta c : ℝ) / (449 / 1000) := by
      rw [e5, abs_div, abs_of_pos hs0]
      exact div_le_div₀ (by positivity) tot (by norm_num) hsl
    have hfin2 : (2702 / 100 * 2 ^ (m + 1) + 1465 / 100 * ((m + 1 : ℕ) : ℝ) + 3 / 10) * (agmDelta c : ℝ) / (449 / 1000) + 3 / 10 * (agmDelta c : ℝ)
        ≤ (61 * 2 ^ (m + 1) + 34 * ((m + 1 : ℕ) : ℝ)) * (agmDelta c : ℝ) := by
      have : (2702 / 100 * 2 ^ (m + 1) + 1465 / 100 * ((m + 1 : ℕ) : ℝ) + 3 / 10) / (449 / 1000) + 3 / 10 ≤ 61 * 2 ^ (m + 1) + 34 * ((m + 1 : ℕ) : ℝ) := by
        rw [div_add' _ _ _ (by norm_num), div_le_iff₀ (by norm_num)]
        linarith
      calc _ = ((2702 / 100 * 2 ^ (m + 1) + 1465 / 100 * ((m + 1 : ℕ) : ℝ) + 3 / 10) / (449 / 1000) + 3 / 10) * (agmDelta c : ℝ) := by ring
        _ ≤ _ := by gcongr
    have : ((divAssign c est fdig w st.s).val c : ℝ) - π = (((divAssign c est fdig w st.s).val c : ℝ) - (w.val c : ℝ) / (st.s.val c : ℝ)) + ((w.val c : ℝ) / (st.s.val c : ℝ) - π) := by ring
    show |((divAssign c est fdig w st.s).val c : ℝ) - π| ≤ _
    rw [this]
    refine le_trans (abs_add_le _ _) ?_
    linarith

end WD
