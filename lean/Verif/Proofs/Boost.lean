import Verif.Proofs.PiMain
import Verif.Props.FloatConv
import Verif.Props.Misc
import Verif.Model.Boost
import Verif.Proofs.Ldexp
import Verif.Props.Pi
/-
  The loop of `constant_pi<decwide_t<...>>::my_compute`: its rounds are those of `calc_pi` (PiRound, PiLoop), with another sum and
  another end.
-/
namespace WD
open DW Real

section
variable {c : Cfg} {estS : DW → DW × DW} {est : DW → DW} {fdig : ℕ}

theorem ldexpI_m2 (v : DW) : ldexpI c est fdig v (-2) = divULL c est fdig v 4 := by simp [ldexpI, ldexp]
theorem ldexpI_m1 (v : DW) : ldexpI c est fdig v (-1) = divULL c est fdig v 2 := by simp [ldexpI, ldexp]
theorem ldexpI_1 (v : DW) : ldexpI c est fdig v 1 = mulULL c v 2 := by simp [ldexpI, ldexp]
theorem ldexpI_nat (v : DW) {k : ℕ} (hk : k < 64) : ldexpI c est fdig v k = if k = 0 then v else mulULL c v (2 ^ k) := by
  unfold ldexpI ldexp
  by_cases h : k = 0
  · rw [if_pos (by omega), if_pos h]; rfl
  · rw [if_neg (by omega), if_neg (by omega), if_neg (by omega), if_neg (by omega), if_neg (by omega), if_neg h]; rfl

/-- `numeric_limits::epsilon()`. -/
def bpEps (c : Cfg) : ℚ := 10 ^ (1 - (c.digits10 : ℤ))

theorem bpEps_pos (c : Cfg) : 0 < bpEps c := by unfold bpEps; positivity

theorem bpEps_delta (c : Cfg) : 1000 * agmDelta c ≤ bpEps c := by
  have hed : 2 ≤ c.ed := by unfold Cfg.ed; cases c.L <;> decide
  have e1 : agmDelta c = 10 ^ (-((c.digits10 : ℤ) + c.ed)) := by
    unfold agmDelta; rw [zpow_neg, one_div, ← zpow_natCast]; push_cast; rfl
  rw [e1, show (1000 : ℚ) = 10 ^ (3 : ℤ) by norm_num, ← zpow_add₀ (by norm_num)]
  exact zpow_le_zpow_right₀ (by norm_num) (by omega)

theorem bpEps_small (h : AgmOk c) : bpEps c ≤ 1 / 10 ^ 40 := by
  have hd := h.d41
  unfold bpEps
  rw [show (1 : ℚ) / 10 ^ 40 = 10 ^ (-40 : ℤ) by rw [zpow_neg, one_div]; rfl]
  exact zpow_le_zpow_right₀ (by norm_num) (by omega)

/-- What holds before round k; `st` is the state of `calc_pi` with the same values. -/
structure BpInv (c : Cfg) (est : DW → DW) (fdig k : ℕ) (b : BoostPi) (st : PiState) : Prop where
  i : PiInv c k st
  t : PiT c st
  ea : b.a = st.a
  eB : b.B = st.bB
  et : divULL c est fdig (addAssign c b.A b.B) 4 = st.t
  fD : Full c b.D
  hD : |(b.D.val c : ℝ) - glSum k / 2| ≤ 44 / 10 * 2 ^ k * (agmDelta c : ℝ)
  fl : Full c b.lim
  hl : |b.lim.val c - 2 ^ k * bpEps c| ≤ k * (3 * mulEps c) * (2 ^ k * bpEps c)

theorem BpInv.same {k : ℕ} {b : BoostPi} {st : PiState} (I : BpInv c est fdig k b st) :
    boostPiRound c estS est fdig b = (BoostPi.mk (piRound c estS est fdig k st).1.a (piRound c estS est fdig k st).1.p
      (piRound c estS est fdig k st).1.bB b.D b.lim,
      subAssign c (piRound c estS est fdig k st).1.p (piRound c estS est fdig k st).1.bB) := by
  unfold boostPiRound piRound
  simp only [ldexpI_m2, ldexpI_m1, ldexpI_1]
  rw [I.et, I.ea, I.eB]

/-- The term `A - B`. -/
theorem bp_term (h : AgmOk c) {k : ℕ} (hk : k < 48) {s : PiState} {it : DW} (i : PiInv c (k + 1) s)
    (hit : it = mulULL c (subAssign c s.bB s.p) (2 ^ (k + 1)))
    (hterm : |(it.val c : ℝ) + 2 ^ (k + 1) * agmC 1 (√(1 / 2)) (k + 1)| ≤ 42 / 10 * 2 ^ (k + 1) * (agmDelta c : ℝ)) :
    Full c (subAssign c s.p s.bB) ∧ |((subAssign c s.p s.bB).val c : ℝ) - agmC 1 (√(1 / 2)) (k + 1)| ≤ 43 / 10 * (agmDelta c : ℝ) ∧
    ((subAssign c s.p s.bB).val c ≠ 0 → -(c.maxExp : ℤ) < (subAssign c s.p s.bB).exp) ∧ |(subAssign c s.p s.bB).val c| ≤ 4 / 100 := by
  obtain ⟨d0, d1⟩ := agmDelta_small h
  have hμ := mulEps_pos c
  have hμδ := mulEps_delta c
  have hδ := agmDelta_pos c
  obtain ⟨hP1, hP2, -, -⟩ := i.pw h (by omega)
  obtain ⟨-, ⟨b1, b2⟩, -⟩ := i.ranges h (by omega)
  have fp := (i.p1 (by omega)).1
  have hrng := h.rng
  have hed := c.ed_pos
  have hlin : ((c.N : ℤ) + 8) * c.ed = c.ed * (c.N : ℤ) + 8 * c.ed := by ring
  obtain ⟨f1, -, -⟩ := sub_op fp i.fb
  obtain ⟨g1, p1, -⟩ := sub_op i.fb fp
  have hbabs : |s.bB.val c| = s.bB.val c := abs_of_pos (by linarith)
  have hpabs : |s.p.val c| = s.p.val c := abs_of_pos (by linarith)
  obtain ⟨-, eb, -⟩ := exp_moderate i.fb (by rw [hbabs]; linarith) (by rw [hbabs]; linarith)
  obtain ⟨-, ep, -⟩ := exp_moderate fp (by rw [hpabs]; linarith) (by rw [hpabs]; linarith)
  obtain ⟨x1, -⟩ := sub_range i.fb fp (by linarith)
  obtain ⟨x2, -⟩ := sub_range fp i.fb (by linarith)
  have anti := subAssign_antisymm fp i.fb
  rw [hbabs, hpabs] at p1
  have hμ1 := mulEps_lt c
  have hGa : |(subAssign c s.bB s.p).val c| ≤ 2 := by
    obtain ⟨y1, y2⟩ := abs_le.mp p1
    rw [abs_le]; constructor <;> nlinarith
  obtain ⟨-, q1, -⟩ := mulU_moderate h g1 (fun hh => by have := x1 hh; omega) (by linarith) (n := 2 ^ (k + 1)) (by positivity)
    (Nat.pow_lt_pow_right (by norm_num) (by omega))
  rw [← hit] at q1
  push_cast at q1
  have hG : (subAssign c s.bB s.p).val c = -(subAssign c s.p s.bB).val c := by rw [anti, neg_neg]
  rw [hG] at q1 hGa
  rw [abs_neg] at q1 hGa
  refine ⟨f1, ?_, fun hh => by have := x2 hh; omega, ?_⟩
  all_goals
    have hpp : (0 : ℚ) < 2 ^ (k + 1) := by positivity
    have q2 : |it.val c - -(subAssign c s.p s.bB).val c * 2 ^ (k + 1)| ≤ 4 / 100 * agmDelta c * 2 ^ (k + 1) := by
      refine le_trans q1 ?_
      have a1 : |(subAssign c s.p s.bB).val c| * 2 ^ (k + 1) ≤ 2 * 2 ^ (k + 1) := by gcongr
      nlinarith
    have q3 := (Rat.cast_le (K := ℝ)).mpr q2
    push_cast at q3
    have hppR : (0 : ℝ) < 2 ^ (k + 1) := by positivity
    have key : |((subAssign c s.p s.bB).val c : ℝ) - agmC 1 (√(1 / 2)) (k + 1)| ≤ 43 / 10 * (agmDelta c : ℝ) := by
      obtain ⟨z1, z2⟩ := abs_le.mp q3
      obtain ⟨z3, z4⟩ := abs_le.mp hterm
      generalize (agmDelta c : ℝ) = δ at *
      generalize agmC 1 (√(1 / 2)) (k + 1) = C at *
      generalize ((subAssign c s.p s.bB).val c : ℝ) = r at *
      generalize (2 : ℝ) ^ (k + 1) = P at *
      rw [abs_le]
      constructor
      · by_contra hc
        push Not at hc
        have := mul_lt_mul_of_pos_left hc hppR
        nlinarith
      · by_contra hc
        push Not at hc
        have := mul_lt_mul_of_pos_left hc hppR
        nlinarith
  · exact key
  · obtain ⟨c1, c2⟩ := agmC_half_le k
    obtain ⟨z1, z2⟩ := abs_le.mp key
    have hd : (agmDelta c : ℝ) ≤ 1 / 1000 := le_trans d1 (by norm_num)
    have : ((|(subAssign c s.p s.bB).val c| : ℚ) : ℝ) ≤ ((4 / 100 : ℚ) : ℝ) := by
      push_cast
      rw [abs_le]; constructor <;> linarith
    exact_mod_cast this

/-- Multiplication by a power of two. -/
theorem bp_scale (h : AgmOk c) {x : DW} (hx : Full c x) (hlo : x.val c ≠ 0 → -(c.maxExp : ℤ) < x.exp) (h2 : |x.val c| ≤ 1)
    {k : ℕ} (hk : k < 48) : Full c (ldexpI c est fdig x k) ∧ |(ldexpI c est fdig x k).val c - 2 ^ k * x.val c| ≤ 2 * mulEps c * 2 ^ k := by
  have hμ := mulEps_pos c
  rw [ldexpI_nat x (by omega)]
  split
  · next h0 => subst h0; simp only [pow_zero, one_mul, sub_self, abs_zero]; exact ⟨hx, by linarith⟩
  · obtain ⟨f, e, -⟩ := mulU_moderate h hx hlo (by linarith) (n := 2 ^ k) (by positivity) (Nat.pow_lt_pow_right (by norm_num) (by omega))
    push_cast at e
    refine ⟨f, ?_⟩
    rw [mul_comm (2 ^ k) (x.val c)]
    refine le_trans e ?_
    have : |x.val c| * 2 ^ k ≤ 1 * 2 ^ k := by gcongr
    nlinarith

theorem mu48 (h : AgmOk c) {k : ℕ} (hk : k ≤ 48) : (k : ℚ) * (3 * mulEps c) ≤ 1 / 100 := by
  have hμ := mulEps_pos c
  have hμ20 := mulEps_le20 (c := c) (by have := h.d41; omega)
  have : (k : ℚ) ≤ 48 := by exact_mod_cast hk
  calc (k : ℚ) * (3 * mulEps c) ≤ 48 * (3 * (1 / 10 ^ 20)) := by gcongr
    _ ≤ _ := by norm_num

/-- The limit of the next round. -/
theorem bp_lim (h : AgmOk c) {k : ℕ} (hk : k < 48) {l : DW} (fl : Full c l)
    (hl : |l.val c - 2 ^ k * bpEps c| ≤ k * (3 * mulEps c) * (2 ^ k * bpEps c)) :
    Full c (ldexpI c est fdig l 1) ∧
    |(ldexpI c est fdig l 1).val c - 2 ^ (k + 1) * bpEps c| ≤ ((k + 1 : ℕ) : ℚ) * (3 * mulEps c) * (2 ^ (k + 1) * bpEps c) := by
  have hμ := mulEps_pos c
  have hε := bpEps_pos c
  have hε1 := bpEps_small h
  have hkμ := mu48 h hk.le
  have hp0 : (1 : ℚ) ≤ 2 ^ k := one_le_pow₀ (by norm_num)
  have hp1 : (2 : ℚ) ^ k ≤ 2 ^ 48 := pow_le_pow_right₀ (by norm_num) hk.le
  have hT : 2 ^ k * bpEps c ≤ 1 / 10 := by
    calc 2 ^ k * bpEps c ≤ 2 ^ 48 * (1 / 10 ^ 40) := by gcongr
      _ ≤ _ := by norm_num
  have hT1 : bpEps c ≤ 2 ^ k * bpEps c := by nlinarith
  have hdl := c.digits_le
  have hrng := h.rng
  have hlin : ((c.N : ℤ) + 8) * c.ed = c.ed * (c.N : ℤ) + 8 * c.ed := by ring
  have hN1 : c.ed * (c.N - 1) = c.ed * c.N - c.ed := by rw [Nat.mul_sub, mul_one]
  have hed := c.ed_pos
  have h3 := c.three_le_N
  have hNe : c.ed ≤ c.ed * c.N := Nat.le_mul_of_pos_right _ (by omega)
  have e2 : (2 : ℚ) ^ (k + 1) * bpEps c = 2 * (2 ^ k * bpEps c) := by ring
  rw [e2, ldexpI_1]
  have hlo : l.val c ≠ 0 → -(c.maxExp : ℤ) < l.exp := by
    intro _
    obtain ⟨y1, -⟩ := abs_le.mp hl
    have a1 : bpEps c / 10 ≤ |l.val c| := le_trans (by nlinarith) (le_abs_self _)
    have a2 := lt_of_le_of_lt a1 fl.toWF.abs_lt
    have e : bpEps c / 10 = 10 ^ (-(c.digits10 : ℤ)) := by
      unfold bpEps
      rw [sub_eq_add_neg, zpow_add₀ (by norm_num)]; norm_num
    rw [e] at a2
    have := (zpow_lt_zpow_iff_right₀ (by norm_num : (1:ℚ) < 10)).mp a2
    omega
  have hid : ∀ T : ℚ, ((k + 1 : ℕ) : ℚ) * (3 * mulEps c) * (2 * T) = (k : ℚ) * (3 * mulEps c) * (2 * T) + 3 * mulEps c * (2 * T) := by
    intro T; push_cast; ring
  rw [hid]
  generalize 2 ^ k * bpEps c = T at *
  generalize (k : ℚ) * (3 * mulEps c) = m at *
  have hT0 : 0 < T := by linarith
  obtain ⟨y1, y2⟩ := abs_le.mp hl
  have hla : |l.val c| ≤ 101 / 100 * T := by rw [abs_le]; constructor <;> nlinarith
  obtain ⟨f, e, -⟩ := mulU_moderate h fl hlo (by linarith) (n := 2) (by norm_num) (by norm_num)
  push_cast at e
  refine ⟨f, ?_⟩
  have e' : |(mulULL c l 2).val c - l.val c * 2| ≤ 3 * mulEps c * (2 * T) := by
    refine le_trans e ?_
    have := mul_le_mul_of_nonneg_left hla hμ.le
    nlinarith
  obtain ⟨y3, y4⟩ := abs_le.mp e'
  rw [abs_le]; constructor <;> nlinarith

theorem glSum_succ (k : ℕ) : glSum (k + 1) / 2 = glSum k / 2 - 2 ^ k * agmC 1 (√(1 / 2)) (k + 1) := by
  unfold glSum
  rw [Finset.sum_range_succ]
  ring

/-- The next value of D. -/
theorem bp_D (h : AgmOk c) {k : ℕ} (hk : k < 48) {D r : DW} (fD : Full c D)
    (hD : |(D.val c : ℝ) - glSum k / 2| ≤ 44 / 10 * 2 ^ k * (agmDelta c : ℝ)) (fr : Full c r)
    (hr : |(r.val c : ℝ) - agmC 1 (√(1 / 2)) (k + 1)| ≤ 43 / 10 * (agmDelta c : ℝ))
    (hlo : r.val c ≠ 0 → -(c.maxExp : ℤ) < r.exp) (hr4 : |r.val c| ≤ 4 / 100) :
    Full c (subAssign c D (ldexpI c est fdig r k)) ∧
    |((subAssign c D (ldexpI c est fdig r k)).val c : ℝ) - glSum (k + 1) / 2| ≤ 44 / 10 * 2 ^ (k + 1) * (agmDelta c : ℝ) := by
  obtain ⟨d0, d1⟩ := agmDelta_small h
  have hμ := mulEps_pos c
  have hμδ := mulEps_delta c
  have hμ1 := mulEps_lt c
  obtain ⟨f1, e1⟩ := bp_scale (est := est) (fdig := fdig) h fr hlo (by linarith) hk
  generalize ldexpI c est fdig r k = x at *
  obtain ⟨f2, e2, -⟩ := sub_op fD f1
  refine ⟨f2, ?_⟩
  rw [glSum_succ]
  have hg := glSum_abs k
  have hp0 : (1 : ℝ) ≤ 2 ^ k := one_le_pow₀ (by norm_num)
  have hp0Q : (1 : ℚ) ≤ 2 ^ k := one_le_pow₀ (by norm_num)
  have hDR : |(D.val c : ℝ)| ≤ 2 ^ k := by
    obtain ⟨x1, x2⟩ := abs_le.mp hD
    obtain ⟨x3, x4⟩ := abs_le.mp hg
    have d2 : (agmDelta c : ℝ) ≤ 1 / 100 := le_trans d1 (by norm_num)
    have : 2 ^ k * (agmDelta c : ℝ) ≤ 2 ^ k * (1 / 100) := by gcongr
    rw [abs_le]; constructor <;> linarith
  have hDa : |D.val c| ≤ 2 ^ k := by
    have : ((|D.val c| : ℚ) : ℝ) ≤ ((2 ^ k : ℚ) : ℝ) := by push_cast; exact hDR
    exact_mod_cast this
  have hxa : |x.val c| ≤ 2 ^ k := by
    obtain ⟨x1, x2⟩ := abs_le.mp e1
    obtain ⟨x3, x4⟩ := abs_le.mp hr4
    have a1 : mulEps c * 2 ^ k ≤ 1 / 10 * 2 ^ k := by gcongr; linarith
    rw [abs_le]; constructor <;> nlinarith
  have e3 : |(subAssign c D x).val c - (D.val c - 2 ^ k * r.val c)| ≤ 4 / 100 * agmDelta c * 2 ^ k := by
    have a1 : mulEps c * (|D.val c| + |x.val c|) ≤ mulEps c * (2 ^ k + 2 ^ k) := by gcongr
    have a2 : mulEps c * 2 ^ k * 100 ≤ agmDelta c * 2 ^ k := by nlinarith
    obtain ⟨x1, x2⟩ := abs_le.mp (le_trans e2 a1)
    obtain ⟨x3, x4⟩ := abs_le.mp e1
    rw [abs_le]; constructor <;> linarith
  have e4 := (Rat.cast_le (K := ℝ)).mpr e3
  push_cast at e4
  have e5 : |2 ^ k * (r.val c : ℝ) - 2 ^ k * agmC 1 (√(1 / 2)) (k + 1)| ≤ 2 ^ k * (43 / 10 * (agmDelta c : ℝ)) := by
    rw [← mul_sub, abs_mul, abs_of_pos (by linarith)]; gcongr
  have hq : 0 ≤ 2 ^ k * (agmDelta c : ℝ) := by positivity
  rw [pow_succ]
  obtain ⟨x1, x2⟩ := abs_le.mp e4
  obtain ⟨x3, x4⟩ := abs_le.mp e5
  obtain ⟨x5, x6⟩ := abs_le.mp hD
  rw [abs_le]; constructor <;> linarith

/-- The limit is 2^k ε up to rounding. -/
theorem bp_lim_bounds (h : AgmOk c) {k : ℕ} (hk : k ≤ 48) {l : DW}
    (hl : |l.val c - 2 ^ k * bpEps c| ≤ k * (3 * mulEps c) * (2 ^ k * bpEps c)) :
    2 ^ k * bpEps c * (1 - 150 * mulEps c) ≤ l.val c ∧ l.val c ≤ 2 ^ k * bpEps c * (1 + 150 * mulEps c) := by
  have hμ := mulEps_pos c
  have hε := bpEps_pos c
  have hk' : (k : ℚ) ≤ 48 := by exact_mod_cast hk
  have a : (k : ℚ) * (3 * mulEps c) * (2 ^ k * bpEps c) ≤ 48 * (3 * mulEps c) * (2 ^ k * bpEps c) := by gcongr
  have hT : 0 < 2 ^ k * bpEps c := by positivity
  generalize 2 ^ k * bpEps c = T at *
  have := mul_pos hT hμ
  obtain ⟨x1, x2⟩ := abs_le.mp (le_trans hl a)
  constructor <;> linarith

theorem bpLoop_spec (h : AgmOk c) (hf : 6 ≤ fdig) (hS : PiSqrtOk c estS fdig) {K : ℕ} (hK : K < 48)
    (hKc : agmC 1 (√(1 / 2)) (K + 1) + 43 / 10 * (agmDelta c : ℝ) ≤ ((2 ^ K * bpEps c * (1 - 150 * mulEps c) : ℚ) : ℝ)) :
    ∀ (fuel k : ℕ) (b : BoostPi) (st : PiState), k + fuel = 48 → k ≤ K → BpInv c est fdig k b st →
    ∃ (n : ℕ) (st' : PiState) (D : DW), n ≤ K ∧
      boostPiLoop c estS est fdig fuel k b = some (divAssign c est fdig st'.bB D, n + 1) ∧ PiInv c (n + 1) st' ∧ Full c D ∧
      |(D.val c : ℝ) - glSum n / 2| ≤ 44 / 10 * 2 ^ n * (agmDelta c : ℝ) ∧
      agmC 1 (√(1 / 2)) (n + 1) ≤ ((2 ^ n * bpEps c * (1 + 150 * mulEps c) : ℚ) : ℝ) + 43 / 10 * (agmDelta c : ℝ) := by
  intro fuel
  induction fuel with
  | zero => intro k b st hk hkK I; omega
  | succ fuel ih =>
    intro k b st hk hkK I
    obtain ⟨i', -, hterm, -⟩ := I.i.round (est := est) h hf hS (by omega : k < 48) I.t
    obtain ⟨t1, t2, t3, t4⟩ := bp_term h (by omega : k < 48) i' rfl hterm
    obtain ⟨l1, l2⟩ := bp_lim_bounds h (by omega : k ≤ 48) I.hl
    have hT := i'.nextT (est := est) (fdig := fdig) h (by omega)
    have hT' := i'.setT (divULL c est fdig (addAssign c (piRound c estS est fdig k st).1.p (piRound c estS est fdig k st).1.bB) 4)
    simp only [boostPiLoop]
    rw [I.same (estS := estS)]
    dsimp only
    generalize (piRound c estS est fdig k st).1 = s at *
    obtain ⟨z1, z2⟩ := abs_le.mp t2
    have hcmp := cmp_spec t1.toWF I.fl.toWF
    split
    · next hle =>
      refine ⟨k, s, b.D, hkK, rfl, i', I.fD, I.hD, ?_⟩
      have hv : (subAssign c s.p s.bB).val c ≤ b.lim.val c := by
        unfold le at hle
        rcases hcmp with ⟨e, q⟩ | ⟨e, q⟩ | ⟨e, q⟩
        · exact q.le
        · exact q.le
        · rw [e] at hle; simp at hle
      have := (Rat.cast_le (K := ℝ)).mpr (le_trans hv l2)
      linarith
    · next hle =>
      have hv : b.lim.val c < (subAssign c s.p s.bB).val c := by
        unfold le at hle
        rcases hcmp with ⟨e, q⟩ | ⟨e, q⟩ | ⟨e, q⟩
        · rw [e] at hle; simp at hle
        · rw [e] at hle; simp at hle
        · exact q
      have hne : k ≠ K := by
        rintro rfl
        have := (Rat.cast_lt (K := ℝ)).mpr (lt_of_le_of_lt l1 hv)
        linarith
      obtain ⟨D1, D2⟩ := bp_D (est := est) (fdig := fdig) h (by omega : k < 48) I.fD I.hD t1 t2 t3 t4
      obtain ⟨m1, m2⟩ := bp_lim (est := est) (fdig := fdig) h (by omega : k < 48) I.fl I.hl
      exact ih (k + 1) _ _ (by omega) (by omega) ⟨hT', hT, rfl, rfl, rfl, D1, D2, m1, m2⟩

end
end WD
