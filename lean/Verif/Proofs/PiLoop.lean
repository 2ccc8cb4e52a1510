import Verif.Proofs.PiRound
/-
  The loop of `calc_pi`: invariant and result.
-/
namespace WD
open DW Real

/-- The exact partial sum. -/
noncomputable def glSum (n : ℕ) : ℝ := 1 / 2 - ∑ k ∈ Finset.range n, 2 ^ (k + 1) * agmC 1 (√(1 / 2)) (k + 1)

/-- What holds before round k. -/
structure PiInv (c : Cfg) (k : ℕ) (st : PiState) : Prop where
  fa : Full c st.a
  fb : Full c st.bB
  fs : Full c st.s
  a1 : (1 - 5 * k * (agmDelta c : ℝ)) * (agmSeq 1 (√(1 / 2)) k).1 ≤ (st.a.val c : ℝ)
  a2 : (st.a.val c : ℝ) ≤ (1 + 5 * k * (agmDelta c : ℝ)) * (agmSeq 1 (√(1 / 2)) k).1
  b1 : (1 - 5 * k * (agmDelta c : ℝ)) ^ 2 * (agmSeq 1 (√(1 / 2)) k).2 ^ 2 ≤ (st.bB.val c : ℝ)
  b2 : (st.bB.val c : ℝ) ≤ (1 + 5 * k * (agmDelta c : ℝ)) ^ 2 * (agmSeq 1 (√(1 / 2)) k).2 ^ 2
  s1 : |(st.s.val c : ℝ) - glSum k| ≤ 43 / 10 * 2 ^ (k + 1) * (agmDelta c : ℝ)
  p1 : 0 < k → Full c st.p ∧ |(st.p.val c : ℝ) - (st.a.val c : ℝ) ^ 2| ≤ 2 / 100 * (agmDelta c : ℝ)

/-- The remaining condition, on t. -/
def PiT (c : Cfg) (st : PiState) : Prop :=
  Full c st.t ∧ |(st.t.val c : ℝ) - ((st.a.val c : ℝ) ^ 2 + (st.bB.val c : ℝ)) / 4| ≤ 103 / 100 * (agmDelta c : ℝ)

theorem agmDelta_small {c : Cfg} (h : AgmOk c) : (0 : ℝ) < agmDelta c ∧ (agmDelta c : ℝ) ≤ 1 / 10 ^ 43 := by
  refine ⟨by exact_mod_cast agmDelta_pos c, ?_⟩
  have hed : 2 ≤ c.ed := by unfold Cfg.ed; cases c.L <;> decide
  have : agmDelta c ≤ 1 / 10 ^ 43 := by
    unfold agmDelta
    exact one_div_le_one_div_of_le (by positivity) (pow_le_pow_right₀ (by norm_num) (by have := h.d41; omega))
  have h' : ((agmDelta c : ℚ) : ℝ) ≤ ((1 / 10 ^ 43 : ℚ) : ℝ) := by exact_mod_cast this
  push_cast at h'; exact h'

theorem agmC_half_le (k : ℕ) : 0 ≤ agmC 1 (√(1 / 2)) (k + 1) ∧ agmC 1 (√(1 / 2)) (k + 1) ≤ 3 / 100 := by
  have hq0 : (0 : ℝ) < √(1 / 2) := Real.sqrt_pos.mpr (by norm_num)
  have hq2 : √(1 / 2 : ℝ) ≤ 7072 / 10000 := by rw [Real.sqrt_le_left (by norm_num)]; norm_num
  rw [agmC_succ hq0 (by linarith)]
  obtain ⟨h1, h2, h3, -, -⟩ := agm_half_bounds k
  constructor
  · positivity
  · nlinarith

theorem glSum_abs (k : ℕ) : |glSum k| ≤ 6 / 10 * 2 ^ k := by
  unfold glSum
  have hs : ∀ n, 0 ≤ ∑ k ∈ Finset.range n, 2 ^ (k + 1) * agmC 1 (√(1 / 2)) (k + 1) ∧
      ∑ k ∈ Finset.range n, 2 ^ (k + 1) * agmC 1 (√(1 / 2)) (k + 1) ≤ 3 / 100 * (2 ^ (n + 1) - 2) := by
    intro n
    induction n with
    | zero => simp
    | succ n ih =>
      rw [Finset.sum_range_succ]
      obtain ⟨h1, h2⟩ := agmC_half_le n
      have hp : (0 : ℝ) < 2 ^ (n + 1) := by positivity
      have h3 := mul_le_mul_of_nonneg_left h2 hp.le
      have h4 := mul_nonneg hp.le h1
      have e : (2 : ℝ) ^ (n + 1 + 1) = 2 * 2 ^ (n + 1) := by ring
      rw [e]
      exact ⟨by linarith [ih.1], by linarith [ih.2]⟩
  obtain ⟨h1, h2⟩ := hs k
  have hp : (1 : ℝ) ≤ 2 ^ k := one_le_pow₀ (by norm_num)
  rw [pow_succ] at h2
  rw [abs_le]; constructor <;> linarith

/-- Ranges that follow from the invariant. -/
theorem PiInv.ranges {c : Cfg} (h : AgmOk c) {k : ℕ} (hk : k ≤ 48) {st : PiState} (i : PiInv c k st) :
    (7 / 10 ≤ st.a.val c ∧ st.a.val c ≤ 101 / 100) ∧ (49 / 100 ≤ st.bB.val c ∧ st.bB.val c ≤ 3 / 4) ∧
    ((1 - 5 * k * (agmDelta c : ℝ)) * (agmSeq 1 (√(1 / 2)) k).2 ≤ √((st.bB.val c : ℚ) : ℝ) ∧
      √((st.bB.val c : ℚ) : ℝ) ≤ (1 + 5 * k * (agmDelta c : ℝ)) * (agmSeq 1 (√(1 / 2)) k).2) ∧
    84 / 100 ≤ (st.a.val c : ℝ) / 2 + √((st.bB.val c : ℚ) : ℝ) / 2 := by
  obtain ⟨d0, d1⟩ := agmDelta_small h
  have hk' : (k : ℝ) ≤ 48 := by exact_mod_cast hk
  have hk0 : (0 : ℝ) ≤ k := Nat.cast_nonneg k
  have hρ0 : 0 ≤ 5 * (k : ℝ) * (agmDelta c : ℝ) := by positivity
  have hρ1 : 5 * (k : ℝ) * (agmDelta c : ℝ) ≤ 1 / 10 ^ 6 := by
    calc 5 * (k : ℝ) * (agmDelta c : ℝ) ≤ 5 * 48 * (1 / 10 ^ 43) := by gcongr
      _ ≤ _ := by norm_num
  obtain ⟨g1, g2, g3, g4, g5⟩ := agm_half_bounds k
  have g6 : (agmSeq 1 (√(1 / 2)) k).2 ^ 2 ≤ 74 / 100 ∧ (4999 : ℝ) / 10000 ≤ (agmSeq 1 (√(1 / 2)) k).2 ^ 2 := by
    have hq1 : (7071 : ℝ) / 10000 ≤ √(1 / 2) := by apply Real.le_sqrt_of_sq_le; norm_num
    constructor
    · nlinarith
    · have : √(1 / 2 : ℝ) ≤ (agmSeq 1 (√(1 / 2)) k).2 := by
        cases k with
        | zero => exact le_refl _
        | succ k =>
          have e2 : (agmSeq 1 (√(1 / 2)) (k + 1)).2 = √((agmSeq 1 (√(1 / 2)) k).1 * (agmSeq 1 (√(1 / 2)) k).2) := rfl
          rw [e2]
          apply Real.sqrt_le_sqrt
          have := (agm_half_bounds k).2.2.2.2
          linarith
      nlinarith
  have g7 : (8405 : ℝ) / 10000 ≤ ((agmSeq 1 (√(1 / 2)) k).1 + (agmSeq 1 (√(1 / 2)) k).2) / 2 := by
    have : (4 : ℝ) * (7071 / 10000) ≤ ((agmSeq 1 (√(1 / 2)) k).1 + (agmSeq 1 (√(1 / 2)) k).2) ^ 2 := by
      have hp : (7071 : ℝ) / 10000 ≤ (agmSeq 1 (√(1 / 2)) k).1 * (agmSeq 1 (√(1 / 2)) k).2 := by
        have hq1 : (7071 : ℝ) / 10000 ≤ √(1 / 2) := by apply Real.le_sqrt_of_sq_le; norm_num
        cases k with
        | zero => simp only [agmSeq]; linarith
        | succ k =>
          have hm := agm_half_bounds (k + 1)
          have e1 : (agmSeq 1 (√(1 / 2)) (k + 1)).1 = ((agmSeq 1 (√(1 / 2)) k).1 + (agmSeq 1 (√(1 / 2)) k).2) / 2 := rfl
          have e2 : (agmSeq 1 (√(1 / 2)) (k + 1)).2 = √((agmSeq 1 (√(1 / 2)) k).1 * (agmSeq 1 (√(1 / 2)) k).2) := rfl
          have hb := (agm_half_bounds k).2.2.2.2
          have h84 : (8366 : ℝ) / 10000 ≤ (agmSeq 1 (√(1 / 2)) (k + 1)).2 := by
            rw [e2]; apply Real.le_sqrt_of_sq_le; linarith
          have h85 := hm.2.1
          -- the mean is at least 0.853
          have key : ∀ j, (7071 : ℝ) / 10000 ≤ (agmSeq 1 (√(1 / 2)) j).1 * (agmSeq 1 (√(1 / 2)) j).2 := by
            intro j
            induction j with
            | zero => simp only [agmSeq]; linarith
            | succ j ih =>
              have f1 : (agmSeq 1 (√(1 / 2)) (j + 1)).1 = ((agmSeq 1 (√(1 / 2)) j).1 + (agmSeq 1 (√(1 / 2)) j).2) / 2 := rfl
              have f2 : (agmSeq 1 (√(1 / 2)) (j + 1)).2 = √((agmSeq 1 (√(1 / 2)) j).1 * (agmSeq 1 (√(1 / 2)) j).2) := rfl
              have f3 := (agm_half_bounds (j + 1)).2.1
              have f4 := (agm_half_bounds (j + 1)).1
              have f5 := Real.sq_sqrt (show 0 ≤ (agmSeq 1 (√(1 / 2)) j).1 * (agmSeq 1 (√(1 / 2)) j).2 by linarith)
              rw [← f2] at f5
              nlinarith
          exact key (k + 1)
      nlinarith [sq_nonneg ((agmSeq 1 (√(1 / 2)) k).1 - (agmSeq 1 (√(1 / 2)) k).2)]
    nlinarith
  have i1 := i.a1
  have i2 := i.a2
  have i3 := i.b1
  have i4 := i.b2
  generalize 5 * (k : ℝ) * (agmDelta c : ℝ) = ρ at *
  generalize (agmSeq 1 (√(1 / 2)) k).1 = x at *
  generalize (agmSeq 1 (√(1 / 2)) k).2 = y at *
  have hB0 : 0 ≤ (st.bB.val c : ℝ) := le_trans (by positivity) i3
  have r1 : (1 - ρ) * y ≤ √((st.bB.val c : ℚ) : ℝ) := by
    apply Real.le_sqrt_of_sq_le; rw [mul_pow]; exact i3
  have r2 : √((st.bB.val c : ℚ) : ℝ) ≤ (1 + ρ) * y := by
    rw [Real.sqrt_le_left (by nlinarith), mul_pow]; exact i4
  refine ⟨⟨?_, ?_⟩, ⟨?_, ?_⟩, ⟨r1, r2⟩, by nlinarith⟩
  · have : ((7 / 10 : ℚ) : ℝ) ≤ (st.a.val c : ℝ) := by push_cast; nlinarith
    exact_mod_cast this
  · have : (st.a.val c : ℝ) ≤ ((101 / 100 : ℚ) : ℝ) := by push_cast; nlinarith
    exact_mod_cast this
  · have : ((49 / 100 : ℚ) : ℝ) ≤ (st.bB.val c : ℝ) := by
      push_cast
      have : (99 / 100 : ℝ) ≤ (1 - ρ) ^ 2 := by nlinarith
      nlinarith
    exact_mod_cast this
  · have : (st.bB.val c : ℝ) ≤ ((3 / 4 : ℚ) : ℝ) := by
      push_cast
      have : (1 + ρ) ^ 2 ≤ 101 / 100 := by nlinarith
      nlinarith
    exact_mod_cast this

set_option maxHeartbeats 2000000 in
/-- One round preserves the invariant, and its term is close to the exact one. -/
theorem PiInv.round {c : Cfg} {estS : DW → DW × DW} {est : DW → DW} {fdig : ℕ} (h : AgmOk c) (hf : 6 ≤ fdig)
    (hS : PiSqrtOk c estS fdig) {k : ℕ} (hk : k < 48) {st : PiState} (i : PiInv c k st) (ht : PiT c st) :
    PiInv c (k + 1) (piRound c estS est fdig k st).1 ∧ Full c (piRound c estS est fdig k st).2 ∧
    |((piRound c estS est fdig k st).2.val c : ℝ) + 2 ^ (k + 1) * agmC 1 (√(1 / 2)) (k + 1)| ≤
      42 / 10 * 2 ^ (k + 1) * (agmDelta c : ℝ) ∧
    ((piRound c estS est fdig k st).2 = zero c ∨ (piRound c estS est fdig k st).2.isZero = false) := by
  obtain ⟨d0, d1⟩ := agmDelta_small h
  obtain ⟨⟨ra1, ra2⟩, ⟨rb1, rb2⟩, ⟨rc1, rc2⟩, rd⟩ := i.ranges h hk.le
  obtain ⟨ft, ht⟩ := ht
  have hd9 : (agmDelta c : ℝ) ≤ 1 / 10 ^ 9 := le_trans d1 (by norm_num)
  -- range of t
  have hT : (3 / 10 ≤ st.t.val c) ∧ st.t.val c ≤ 4 / 10 := by
    obtain ⟨x1, x2⟩ := abs_le.mp ht
    have hA2 : (st.a.val c : ℝ) ≤ (1 + 5 * k * (agmDelta c : ℝ)) * (agmSeq 1 (√(1 / 2)) k).1 := i.a2
    have hB2 := i.b2
    have hA1 := i.a1
    obtain ⟨g1, g2, g3, g4, g5⟩ := agm_half_bounds k
    have hk' : (k : ℝ) ≤ 48 := by exact_mod_cast hk.le
    have hk0 : (0 : ℝ) ≤ k := Nat.cast_nonneg k
    have hρ0 : 0 ≤ 5 * (k : ℝ) * (agmDelta c : ℝ) := by positivity
    have hρ1 : 5 * (k : ℝ) * (agmDelta c : ℝ) ≤ 1 / 10 ^ 6 := by
      calc 5 * (k : ℝ) * (agmDelta c : ℝ) ≤ 5 * 48 * (1 / 10 ^ 43) := by gcongr
        _ ≤ _ := by norm_num
    have hsum : (st.a.val c : ℝ) ^ 2 + (st.bB.val c : ℝ) ≤ 1.54 ∧ 1.21 ≤ (st.a.val c : ℝ) ^ 2 + (st.bB.val c : ℝ) := by
      have hb1 := i.b1
      generalize 5 * (k : ℝ) * (agmDelta c : ℝ) = ρ at *
      generalize (agmSeq 1 (√(1 / 2)) k).1 = x at *
      generalize (agmSeq 1 (√(1 / 2)) k).2 = y at *
      have ha0 : (0 : ℝ) ≤ st.a.val c := le_trans (by nlinarith) hA1
      have hx2 : (st.a.val c : ℝ) ^ 2 ≤ ((1 + ρ) * x) ^ 2 := pow_le_pow_left₀ ha0 hA2 2
      have hx1 : ((1 - ρ) * x) ^ 2 ≤ (st.a.val c : ℝ) ^ 2 := pow_le_pow_left₀ (by nlinarith) hA1 2
      rw [mul_pow] at hx1 hx2
      have q1 : (1 + ρ) ^ 2 ≤ 1001 / 1000 := by nlinarith
      have q2 : (999 : ℝ) / 1000 ≤ (1 - ρ) ^ 2 := by nlinarith
      have q3 : x ^ 2 + y ^ 2 ≤ 153 / 100 := by nlinarith
      have q4 : (14 : ℝ) / 10 ≤ x ^ 2 + y ^ 2 := by nlinarith [sq_nonneg (x - y)]
      constructor
      · have : (1 + ρ) ^ 2 * (x ^ 2 + y ^ 2) ≤ 1001 / 1000 * (153 / 100) := by gcongr
        nlinarith
      · have : (999 : ℝ) / 1000 * (14 / 10) ≤ (1 - ρ) ^ 2 * (x ^ 2 + y ^ 2) := by gcongr
        nlinarith
    constructor
    · have : ((3 / 10 : ℚ) : ℝ) ≤ (st.t.val c : ℝ) := by push_cast; linarith [hsum.2]
      exact_mod_cast this
    · have : (st.t.val c : ℝ) ≤ ((4 / 10 : ℚ) : ℝ) := by push_cast; linarith [hsum.1]
      exact_mod_cast this
  obtain ⟨⟨f1, f2, f3, f4, f5⟩, e1, e2, e3, e4, e5, ez⟩ := piRound_spec (est := est) h hf hS hk i.fa i.fb ft i.fs ra1 ra2 rb1 rb2 hT.1 hT.2 rd
  generalize piRound c estS est fdig k st = r at *
  have e2' : |(r.1.p.val c : ℝ) - (r.1.a.val c : ℝ) ^ 2| ≤ 2 / 100 * (agmDelta c : ℝ) := by
    have := (Rat.cast_le (K := ℝ)).mpr e2; push_cast at this; exact this
  have e3' : |(r.1.bB.val c : ℝ) - 2 * ((r.1.p.val c : ℝ) - (st.t.val c : ℝ))| ≤ 7 / 100 * (agmDelta c : ℝ) := by
    have := (Rat.cast_le (K := ℝ)).mpr e3; push_cast at this; exact this
  have e4' : |(r.2.val c : ℝ) - 2 ^ (k + 1) * ((r.1.bB.val c : ℝ) - (r.1.p.val c : ℝ))| ≤ 5 / 100 * (2 ^ (k + 1) * (agmDelta c : ℝ)) := by
    have := (Rat.cast_le (K := ℝ)).mpr e4; push_cast at this; exact this
  have e5' : |(r.1.s.val c : ℝ) - ((st.s.val c : ℝ) + (r.2.val c : ℝ))| ≤ 1 / 100 * (agmDelta c : ℝ) * (|(st.s.val c : ℝ)| + |(r.2.val c : ℝ)|) := by
    have := (Rat.cast_le (K := ℝ)).mpr e5; push_cast at this; exact this
  clear e2 e3 e4 e5
  obtain ⟨g1, g2, g3, g4, g5⟩ := agm_half_bounds k
  have hk' : (k : ℝ) ≤ 48 := by exact_mod_cast hk.le
  have hk0 : (0 : ℝ) ≤ k := Nat.cast_nonneg k
  have hρ0 : 0 ≤ 5 * (k : ℝ) * (agmDelta c : ℝ) := by positivity
  have hρ1 : 5 * (k : ℝ) * (agmDelta c : ℝ) ≤ 1 / 1000 := by
    calc 5 * (k : ℝ) * (agmDelta c : ℝ) ≤ 5 * 48 * (1 / 10 ^ 43) := by gcongr
      _ ≤ _ := by norm_num
  have hBsq : √((st.bB.val c : ℚ) : ℝ) ^ 2 = (st.bB.val c : ℝ) := Real.sq_sqrt (by
    have : ((49 / 100 : ℚ) : ℝ) ≤ ((st.bB.val c : ℚ) : ℝ) := by exact_mod_cast rb1
    push_cast at this; linarith)
  rw [← hBsq] at ht
  obtain ⟨⟨z1, z2⟩, ⟨z3, z4⟩, z5⟩ := pi_step g1 g2 g4 g5 hρ0 hρ1 d0 (le_trans d1 (by norm_num)) i.a1 i.a2 rc1 rc2 ht e1 e2' e3'
  have z6 := pi_term hk.le d0 hd9 i.a1 i.a2 rc1 rc2
  -- the term
  have hpp : (0 : ℝ) < 2 ^ (k + 1) := by positivity
  have w1 : |((r.1.bB.val c : ℝ) - (r.1.p.val c : ℝ)) + agmC 1 (√(1 / 2)) (k + 1)| ≤ 415 / 100 * (agmDelta c : ℝ) := by
    obtain ⟨m1, m2⟩ := abs_le.mp z5
    obtain ⟨m3, m4⟩ := abs_le.mp z6
    rw [abs_le]; constructor <;> linarith
  have w2 : |(r.2.val c : ℝ) + 2 ^ (k + 1) * agmC 1 (√(1 / 2)) (k + 1)| ≤ 42 / 10 * 2 ^ (k + 1) * (agmDelta c : ℝ) := by
    have : |2 ^ (k + 1) * (((r.1.bB.val c : ℝ) - (r.1.p.val c : ℝ)) + agmC 1 (√(1 / 2)) (k + 1))| ≤ 2 ^ (k + 1) * (415 / 100 * (agmDelta c : ℝ)) := by
      rw [abs_mul, abs_of_pos hpp]; gcongr
    obtain ⟨m1, m2⟩ := abs_le.mp this
    obtain ⟨m3, m4⟩ := abs_le.mp e4'
    rw [abs_le]; constructor <;> linarith
  refine ⟨⟨f1, f2, f3, ?_, ?_, ?_, ?_, ?_, fun _ => ⟨f4, e2'⟩⟩, f5, w2, ez⟩
  · have e : 5 * ((k + 1 : ℕ) : ℝ) * (agmDelta c : ℝ) = 5 * k * (agmDelta c : ℝ) + 5 * (agmDelta c : ℝ) := by push_cast; ring
    rw [e]; exact z1
  · have e : 5 * ((k + 1 : ℕ) : ℝ) * (agmDelta c : ℝ) = 5 * k * (agmDelta c : ℝ) + 5 * (agmDelta c : ℝ) := by push_cast; ring
    rw [e]; exact z2
  · have e : 5 * ((k + 1 : ℕ) : ℝ) * (agmDelta c : ℝ) = 5 * k * (agmDelta c : ℝ) + 5 * (agmDelta c : ℝ) := by push_cast; ring
    have e2 : (agmSeq 1 (√(1 / 2)) (k + 1)).2 ^ 2 = (agmSeq 1 (√(1 / 2)) k).1 * (agmSeq 1 (√(1 / 2)) k).2 :=
      Real.sq_sqrt (by linarith)
    rw [e, e2]; exact z3
  · have e : 5 * ((k + 1 : ℕ) : ℝ) * (agmDelta c : ℝ) = 5 * k * (agmDelta c : ℝ) + 5 * (agmDelta c : ℝ) := by push_cast; ring
    have e2 : (agmSeq 1 (√(1 / 2)) (k + 1)).2 ^ 2 = (agmSeq 1 (√(1 / 2)) k).1 * (agmSeq 1 (√(1 / 2)) k).2 :=
      Real.sq_sqrt (by linarith)
    rw [e, e2]; exact z4
  · have hs := i.s1
    have hg := glSum_abs k
    obtain ⟨c1, c2⟩ := agmC_half_le k
    have e : glSum (k + 1) = glSum k - 2 ^ (k + 1) * agmC 1 (√(1 / 2)) (k + 1) := by
      unfold glSum; rw [Finset.sum_range_succ]; ring
    have e2 : (2 : ℝ) ^ (k + 1 + 1) = 2 * 2 ^ (k + 1) := by ring
    have e3 : (2 : ℝ) ^ k = 2 ^ (k + 1) / 2 := by rw [pow_succ]; ring
    rw [e, e2]
    rw [e3] at hg
    have hc1 := mul_nonneg hpp.le c1
    have hc2 := mul_le_mul_of_nonneg_left c2 hpp.le
    have hpd : 2 ^ (k + 1) * (agmDelta c : ℝ) ≤ 2 ^ (k + 1) * (1 / 100) := by
      gcongr; exact le_trans d1 (by norm_num)
    have hpd0 : 0 < 2 ^ (k + 1) * (agmDelta c : ℝ) := by positivity
    generalize glSum k = S at *
    generalize 2 ^ (k + 1) * agmC 1 (√(1 / 2)) (k + 1) = C at *
    have b1 : |(st.s.val c : ℝ)| ≤ 4 / 10 * 2 ^ (k + 1) := by
      have : |(st.s.val c : ℝ)| ≤ |S| + |(st.s.val c : ℝ) - S| := by
        have := abs_add_le S ((st.s.val c : ℝ) - S); rwa [add_sub_cancel] at this
      nlinarith
    have b2 : |(r.2.val c : ℝ)| ≤ 4 / 10 * 2 ^ (k + 1) := by
      obtain ⟨m1, m2⟩ := abs_le.mp w2
      rw [abs_le]; constructor <;> linarith
    have b3 : 1 / 100 * (agmDelta c : ℝ) * (|(st.s.val c : ℝ)| + |(r.2.val c : ℝ)|) ≤ 1 / 100 * (agmDelta c : ℝ) * (8 / 10 * 2 ^ (k + 1)) := by
      gcongr; linarith
    obtain ⟨m1, m2⟩ := abs_le.mp (le_trans e5' b3)
    obtain ⟨m3, m4⟩ := abs_le.mp w2
    obtain ⟨m5, m6⟩ := abs_le.mp hs
    rw [abs_le]; constructor <;> nlinarith

end WD
