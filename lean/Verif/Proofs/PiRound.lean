import Verif.Proofs.PiOps
import Verif.Proofs.PiReal
/-
  One round of `calc_pi` with its rounding errors.
-/
namespace WD
open DW Real

theorem offSquares_mid {c : Cfg} {t q : ℚ} (ht : t ≤ 1 / 10) (h1 : 49 / 100 ≤ q) (h2 : q ≤ 3 / 4) : OffSquares c t q := by
  have hB : (100 : ℚ) ≤ c.B := by
    have : 100 ≤ c.B := by unfold Cfg.B; cases c.L <;> decide
    exact_mod_cast this
  intro k
  have key : (c.B : ℚ) ^ (2 * k) = 1 ∨ (c.B : ℚ) ^ (2 * k) ≤ 1 / 10000 ∨ 10000 ≤ (c.B : ℚ) ^ (2 * k) := by
    have h4 : (10000 : ℚ) ≤ (c.B : ℚ) ^ (2 : ℤ) := by
      rw [show (2 : ℤ) = ((2 : ℕ) : ℤ) by rfl, zpow_natCast]; nlinarith
    rcases lt_trichotomy k 0 with hk | hk | hk
    · right; left
      have a : (c.B : ℚ) ^ (2 * k) ≤ (c.B : ℚ) ^ (-2 : ℤ) := zpow_le_zpow_right₀ (by linarith) (by omega)
      refine le_trans a ?_
      rw [zpow_neg, one_div]
      exact inv_anti₀ (by norm_num) h4
    · left; rw [hk]; simp
    · right; right
      exact le_trans h4 (zpow_le_zpow_right₀ (by linarith) (by omega))
  have hp : (0 : ℚ) < (c.B : ℚ) ^ (2 * k) := by positivity
  generalize (c.B : ℚ) ^ (2 * k) = P at *
  rcases key with h | h | h
  · subst h
    constructor
    · rw [div_one, abs_sub_comm]; exact le_trans (by linarith) (le_abs_self _)
    · rw [div_one]; exact le_trans (by linarith) (le_abs_self _)
  · have a1 : 2 ≤ q / P := by rw [le_div_iff₀ hp]; linarith
    have a2 : 2 ≤ 4 * q / P := by rw [le_div_iff₀ hp]; linarith
    exact ⟨le_trans (by linarith) (le_abs_self _), le_trans (by linarith) (le_abs_self _)⟩
  · have a1 : q / P ≤ 1 / 2 := by rw [div_le_iff₀ hp]; linarith
    have a2 : 4 * q / P ≤ 1 / 2 := by rw [div_le_iff₀ hp]; linarith
    exact ⟨by rw [abs_sub_comm]; exact le_trans (by linarith) (le_abs_self _),
      by rw [abs_sub_comm]; exact le_trans (by linarith) (le_abs_self _)⟩

/-- The start values of the square root are good for the numbers that occur. -/
def PiSqrtOk (c : Cfg) (estS : DW → DW × DW) (fdig : ℕ) : Prop :=
  ∀ x : DW, Full c x → 49 / 100 ≤ x.val c → x.val c ≤ 3 / 4 → SqrtStartOk c fdig (estS x).1 (estS x).2 (x.val c)

theorem sqrt_moderate {c : Cfg} {estS : DW → DW × DW} {fdig : ℕ} (h : AgmOk c) (hf : 6 ≤ fdig) (hS : PiSqrtOk c estS fdig) {x : DW}
    (hx : Full c x) (h1 : 49 / 100 ≤ x.val c) (h2 : x.val c ≤ 3 / 4) :
    Full c (calcSqrt c estS fdig x) ∧
    |((calcSqrt c estS fdig x).val c : ℝ) - √((x.val c : ℚ) : ℝ)| ≤ 8 * (mulEps c : ℝ) := by
  have habs : |x.val c| = x.val c := abs_of_pos (by linarith)
  obtain ⟨hz, e1, e2⟩ := exp_moderate hx (by rw [habs]; linarith) (by rw [habs]; linarith)
  have hr := h.rng
  have hed := c.ed_pos
  have hlin : ((c.N : ℤ) + 8) * c.ed = (c.N + 6) * c.ed + 2 * c.ed := by ring
  have ht : (60 : ℚ) / 10 ^ fdig + 320 / 10 ^ (c.digits10 + 2 * c.ed) ≤ 1 / 10 := by
    have a : (10 : ℚ) ^ 6 ≤ 10 ^ fdig := pow_le_pow_right₀ (by norm_num) hf
    have b : (10 : ℚ) ^ 6 ≤ 10 ^ (c.digits10 + 2 * c.ed) := pow_le_pow_right₀ (by norm_num) (by have := h.d41; omega)
    have a' : (60 : ℚ) / 10 ^ fdig ≤ 60 / 10 ^ 6 := div_le_div_of_nonneg_left (by norm_num) (by norm_num) a
    have b' : (320 : ℚ) / 10 ^ (c.digits10 + 2 * c.ed) ≤ 320 / 10 ^ 6 := div_le_div_of_nonneg_left (by norm_num) (by norm_num) b
    norm_num at a' b'; linarith
  obtain ⟨q1, q2, q3⟩ := sqrt_accuracy_partial c estS fdig x hx (by linarith) h.ok (by have := h.d41; omega) hf (by omega) (by omega)
    (hS x hx h1 h2) (fun _ => offSquares_mid ht h1 h2)
  refine ⟨q1, le_trans q3.le ?_⟩
  have hs : √((x.val c : ℚ) : ℝ) ≤ 1 := by
    rw [Real.sqrt_le_left (by norm_num)]
    have : ((x.val c : ℚ) : ℝ) ≤ ((3 / 4 : ℚ) : ℝ) := by exact_mod_cast h2
    push_cast at this; linarith
  have : (8 : ℝ) / 10 ^ (c.digits10 + 2 * c.ed) = 8 * (mulEps c : ℝ) := by unfold mulEps; push_cast; ring
  rw [this]
  have hμ : (0 : ℝ) < mulEps c := by exact_mod_cast mulEps_pos c
  nlinarith

set_option maxHeartbeats 1000000 in
theorem piRound_spec {c : Cfg} {estS : DW → DW × DW} {est : DW → DW} {fdig : ℕ} (h : AgmOk c) (hf : 6 ≤ fdig)
    (hS : PiSqrtOk c estS fdig) {k : ℕ} (hk : k < 48) {st : PiState} (fa : Full c st.a) (fb : Full c st.bB) (ft : Full c st.t)
    (fs : Full c st.s) (a1 : 7 / 10 ≤ st.a.val c) (a2 : st.a.val c ≤ 101 / 100) (b1 : 49 / 100 ≤ st.bB.val c)
    (b2 : st.bB.val c ≤ 3 / 4) (t1 : 3 / 10 ≤ st.t.val c) (t2 : st.t.val c ≤ 4 / 10)
    (ht : 84 / 100 ≤ (st.a.val c : ℝ) / 2 + √((st.bB.val c : ℚ) : ℝ) / 2) :
    let r := piRound c estS est fdig k st
    (Full c r.1.a ∧ Full c r.1.bB ∧ Full c r.1.s ∧ Full c r.1.p ∧ Full c r.2) ∧
    |(r.1.a.val c : ℝ) - ((st.a.val c : ℝ) + √((st.bB.val c : ℚ) : ℝ)) / 2| ≤ 11 / 10 * (agmDelta c : ℝ) ∧
    |r.1.p.val c - r.1.a.val c ^ 2| ≤ 2 / 100 * agmDelta c ∧
    |r.1.bB.val c - 2 * (r.1.p.val c - st.t.val c)| ≤ 7 / 100 * agmDelta c ∧
    |r.2.val c - 2 ^ (k + 1) * (r.1.bB.val c - r.1.p.val c)| ≤ 5 / 100 * (2 ^ (k + 1) * agmDelta c) ∧
    |r.1.s.val c - (st.s.val c + r.2.val c)| ≤ 1 / 100 * agmDelta c * (|st.s.val c| + |r.2.val c|) ∧
    (r.2 = zero c ∨ r.2.isZero = false) := by
  intro r
  have hμ := mulEps_pos c
  have hδ := agmDelta_pos c
  have hμδ := mulEps_delta c
  have hδ1 : agmDelta c ≤ 1 / 10 ^ 9 := by
    unfold agmDelta
    exact one_div_le_one_div_of_le (by positivity) (pow_le_pow_right₀ (by norm_num) (by have := h.d41; omega))
  have hbig := h.big
  -- square root
  obtain ⟨f1, s1⟩ := sqrt_moderate (estS := estS) h hf hS fb b1 b2
  have hrl : (70 : ℝ) / 100 ≤ √((st.bB.val c : ℚ) : ℝ) := by
    apply Real.le_sqrt_of_sq_le
    have : ((49 / 100 : ℚ) : ℝ) ≤ ((st.bB.val c : ℚ) : ℝ) := by exact_mod_cast b1
    push_cast at this; linarith
  have hru : √((st.bB.val c : ℚ) : ℝ) ≤ 87 / 100 := by
    rw [Real.sqrt_le_left (by norm_num)]
    have : ((st.bB.val c : ℚ) : ℝ) ≤ ((3 / 4 : ℚ) : ℝ) := by exact_mod_cast b2
    push_cast at this; linarith
  have hμR : (mulEps c : ℝ) ≤ 1 / 100 * (agmDelta c : ℝ) := by
    have : ((100 * mulEps c : ℚ) : ℝ) ≤ ((agmDelta c : ℚ) : ℝ) := by exact_mod_cast hμδ
    push_cast at this; linarith
  have hδR : (agmDelta c : ℝ) ≤ 1 / 10 ^ 9 := by
    have : ((agmDelta c : ℚ) : ℝ) ≤ ((1 / 10 ^ 9 : ℚ) : ℝ) := by exact_mod_cast hδ1
    push_cast at this; linarith
  have hδ0R : (0 : ℝ) < agmDelta c := by exact_mod_cast hδ
  obtain ⟨s2, s3⟩ := abs_le.mp s1
  have hsq1 : 69 / 100 ≤ (calcSqrt c estS fdig st.bB).val c := by
    have : (69 / 100 : ℝ) ≤ ((calcSqrt c estS fdig st.bB).val c : ℝ) := by linarith
    have h' : ((69 / 100 : ℚ) : ℝ) ≤ ((calcSqrt c estS fdig st.bB).val c : ℝ) := by push_cast; linarith
    exact_mod_cast h'
  have hsq2 : (calcSqrt c estS fdig st.bB).val c ≤ 88 / 100 := by
    have h' : ((calcSqrt c estS fdig st.bB).val c : ℝ) ≤ ((88 / 100 : ℚ) : ℝ) := by push_cast; linarith
    exact_mod_cast h'
  generalize hsd : calcSqrt c estS fdig st.bB = sd at *
  -- sum and halving
  obtain ⟨f2, u1, -⟩ := add_op fa f1
  rw [abs_of_pos (show 0 < st.a.val c by linarith), abs_of_pos (show 0 < sd.val c by linarith)] at u1
  have u1' : |(addAssign c st.a sd).val c - (st.a.val c + sd.val c)| ≤ 2 * mulEps c := le_trans u1 (by nlinarith)
  obtain ⟨u2, u3⟩ := abs_le.mp u1'
  generalize hw : addAssign c st.a sd = w at *
  obtain ⟨f3, d1⟩ := div_moderate (est := est) (fdig := fdig) h f2 (by linarith) (by linarith) (n := 2) (by norm_num) (by norm_num)
  push_cast at d1
  obtain ⟨d2, d3⟩ := abs_le.mp d1
  have ra : r.1.a = divULL c est fdig w 2 := by rw [← hw, ← hsd]; rfl
  generalize hA : divULL c est fdig w 2 = A at *
  have eA : |(A.val c : ℝ) - ((st.a.val c : ℝ) + √((st.bB.val c : ℚ) : ℝ)) / 2| ≤ 11 / 10 * (agmDelta c : ℝ) := by
    have v2 : ((-(2 * mulEps c) : ℚ) : ℝ) ≤ ((w.val c - (st.a.val c + sd.val c) : ℚ) : ℝ) := by exact_mod_cast u2
    have v3 : ((w.val c - (st.a.val c + sd.val c) : ℚ) : ℝ) ≤ ((2 * mulEps c : ℚ) : ℝ) := by exact_mod_cast u3
    have v4 : ((-agmDelta c : ℚ) : ℝ) ≤ ((A.val c - w.val c / 2 : ℚ) : ℝ) := by exact_mod_cast d2
    have v5 : ((A.val c - w.val c / 2 : ℚ) : ℝ) ≤ ((agmDelta c : ℚ) : ℝ) := by exact_mod_cast d3
    push_cast at v2 v3 v4 v5
    rw [abs_le]; constructor <;> linarith
  have hA1 : 83 / 100 ≤ A.val c := by
    have h' : ((83 / 100 : ℚ) : ℝ) ≤ (A.val c : ℝ) := by
      push_cast
      have := (abs_le.mp eA).1
      linarith
    exact_mod_cast h'
  have hA2 : A.val c ≤ 95 / 100 := by linarith
  -- square
  have hAabs : |A.val c| = A.val c := abs_of_pos (by linarith)
  obtain ⟨f4, m1⟩ := mul_moderate h f3 f3 (by rw [hAabs]; linarith) (by rw [hAabs]; linarith) (by rw [hAabs]; linarith) (by rw [hAabs]; linarith)
  rw [hAabs] at m1
  have m1' : |(mulAssign c A A).val c - A.val c * A.val c| ≤ 2 * mulEps c := by
    have h1 : A.val c * A.val c ≤ 1 := by nlinarith
    refine le_trans m1 ?_
    nlinarith
  obtain ⟨m2, m3⟩ := abs_le.mp m1'
  have rp : r.1.p = mulAssign c A A := by rw [← hA, ← hw, ← hsd]; rfl
  generalize hP : mulAssign c A A = P at *
  have hP1 : 68 / 100 ≤ P.val c := by nlinarith
  have hP2 : P.val c ≤ 91 / 100 := by nlinarith
  -- B
  obtain ⟨f5, n1, -⟩ := sub_op f4 ft
  rw [abs_of_pos (show 0 < P.val c by linarith), abs_of_pos (show 0 < st.t.val c by linarith)] at n1
  have n1' : |(subAssign c P st.t).val c - (P.val c - st.t.val c)| ≤ 2 * mulEps c := le_trans n1 (by nlinarith)
  obtain ⟨n2, n3⟩ := abs_le.mp n1'
  generalize hD : subAssign c P st.t = D at *
  have hDp : 0 < D.val c := by linarith
  have hDabs : |D.val c| = D.val c := abs_of_pos hDp
  obtain ⟨-, eD, -⟩ := exp_moderate f5 (by rw [hDabs]; linarith) (by rw [hDabs]; linarith)
  obtain ⟨f6, o1, -⟩ := mulU_moderate h f5 (fun _ => by omega) (by rw [hDabs]; linarith) (n := 2) (by norm_num) (by norm_num)
  rw [hDabs] at o1
  push_cast at o1
  have o1' : |(mulULL c D 2).val c - D.val c * 2| ≤ 3 * mulEps c := le_trans o1 (by nlinarith)
  obtain ⟨o2, o3⟩ := abs_le.mp o1'
  have rb : r.1.bB = mulULL c D 2 := by rw [← hD, ← hP, ← hA, ← hw, ← hsd]; rfl
  generalize hE : mulULL c D 2 = E at *
  have hE1 : 1 / 2 ≤ E.val c := by linarith
  have hE2 : E.val c ≤ 13 / 10 := by linarith
  -- term
  have hEabs : |E.val c| = E.val c := abs_of_pos (by linarith)
  have hPabs : |P.val c| = P.val c := abs_of_pos (by linarith)
  obtain ⟨-, eE, -⟩ := exp_moderate f6 (by rw [hEabs]; linarith) (by rw [hEabs]; linarith)
  obtain ⟨f7, p1, -⟩ := sub_op f6 f4
  rw [hEabs, hPabs] at p1
  have p1' : |(subAssign c E P).val c - (E.val c - P.val c)| ≤ 3 * mulEps c := le_trans p1 (by nlinarith)
  obtain ⟨p2, p3⟩ := abs_le.mp p1'
  obtain ⟨g1, -⟩ := sub_range f6 f4 (by linarith)
  have hrng := h.rng
  have hlin : ((c.N : ℤ) + 8) * c.ed = c.ed * (c.N : ℤ) + 8 * c.ed := by ring
  have hed := c.ed_pos
  generalize hG : subAssign c E P = G at *
  have hGa : |G.val c| ≤ 1 := by rw [abs_le]; constructor <;> linarith
  have hpow : 2 ^ (k + 1) < 2 ^ 64 := Nat.pow_lt_pow_right (by norm_num) (by omega)
  obtain ⟨f8, q1, qz⟩ := mulU_moderate h f7 (fun hh => by have := g1 hh; omega) (by linarith) (n := 2 ^ (k + 1)) (by positivity) hpow
  push_cast at q1
  have ri : r.2 = mulULL c G (2 ^ (k + 1)) := by rw [← hG, ← hE, ← hD, ← hP, ← hA, ← hw, ← hsd]; rfl
  generalize hI : mulULL c G (2 ^ (k + 1)) = I at *
  have hpp : (0 : ℚ) < 2 ^ (k + 1) := by positivity
  have q1' : |I.val c - G.val c * 2 ^ (k + 1)| ≤ 2 * mulEps c * 2 ^ (k + 1) := by
    refine le_trans q1 ?_
    have : |G.val c| * 2 ^ (k + 1) ≤ 1 * 2 ^ (k + 1) := by gcongr
    nlinarith
  obtain ⟨q2, q3⟩ := abs_le.mp q1'
  have rs : r.1.s = addAssign c st.s I := by rw [← hI, ← hG, ← hE, ← hD, ← hP, ← hA, ← hw, ← hsd]; rfl
  obtain ⟨f9, x1, -⟩ := add_op fs f8
  rw [ra, rp, rb, ri, rs]
  refine ⟨⟨f3, f6, f9, f4, f8⟩, eA, ?_, ?_, ?_, ?_, qz⟩
  · rw [abs_le, pow_two]; constructor <;> linarith
  · rw [abs_le]; constructor <;> linarith
  · have h1 : |(G.val c - (E.val c - P.val c)) * 2 ^ (k + 1)| ≤ 3 * mulEps c * 2 ^ (k + 1) := by
      rw [abs_mul, abs_of_pos hpp]; gcongr
    obtain ⟨y1, y2⟩ := abs_le.mp h1
    have h2 : mulEps c * 2 ^ (k + 1) ≤ 1 / 100 * agmDelta c * 2 ^ (k + 1) := by gcongr; linarith
    rw [abs_le]; constructor <;> nlinarith
  · refine le_trans x1 ?_
    gcongr; linarith

end WD
