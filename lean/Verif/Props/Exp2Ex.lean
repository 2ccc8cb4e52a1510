import Verif.Props.Exp2
import Verif.Props.LogAgm
import Verif.Proofs.FftRnd
/-
  The hypotheses of C62 are met: `exp(1/2)` through the path for more than 2000 digits, run with 52 digits, `double`, the
  logarithm of the code (C60's model) and an exponential function that meets `Flt.IsExp`.
-/
namespace WD
open DW

/-- `std::exp` on [0, 1]: the rounded sum of the first 20 terms of the series. -/
def exExp (F : Flt) (q : ℚ) : ℚ := F.rnd (((List.range 20).map fun i => q ^ i / i.factorial).sum)

theorem exExp_ok (F : Flt) (hF : F.IsDouble) : F.IsExp (exExp F) := by
  intro q _ h0 h1
  refine ⟨F.rep _, ?_⟩
  have hp : 1 ≤ F.p := by rw [hF.1]; norm_num
  have e := F.rnd_errR hp (((List.range 20).map fun i => q ^ i / i.factorial).sum)
  have hs : ((((List.range 20).map fun i => q ^ i / i.factorial).sum : ℚ) : ℝ) = ∑ m ∈ Finset.range 20, (q : ℝ) ^ m / m.factorial := by
    rw [Rat.cast_list_sum]
    simp [List.range_succ, Finset.sum_range_succ]
    ring
  have h0' : (0 : ℝ) ≤ q := by exact_mod_cast h0
  have h1' : (q : ℝ) ≤ 1 := by exact_mod_cast h1
  have b := Real.exp_bound (x := (q : ℝ)) (by rw [abs_of_nonneg h0']; exact h1') (n := 20) (by norm_num)
  have hpw : |(q : ℝ)| ^ 20 ≤ 1 := by rw [abs_of_nonneg h0']; exact pow_le_one₀ h0' h1'
  have hf : ((20 : ℕ).succ / ((20 : ℕ).factorial * (20 : ℕ)) : ℝ) ≤ 1 / 10 ^ 18 := by norm_num [Nat.factorial]
  have b2 : |Real.exp q - ∑ m ∈ Finset.range 20, (q : ℝ) ^ m / m.factorial| ≤ 1 / 10 ^ 18 := by
    refine b.trans ((mul_le_mul hpw hf (by positivity) (by norm_num)).trans (by norm_num))
  rw [hs] at e
  unfold exExp
  generalize (F.rnd (((List.range 20).map fun i => q ^ i / i.factorial).sum)) = r at e ⊢
  generalize (∑ m ∈ Finset.range 20, (q : ℝ) ^ m / m.factorial) = s at e b2
  have hu : (F.u : ℝ) = 1 / 2 ^ 53 := by unfold Flt.u; rw [hF.1]; norm_num
  rw [hu] at e
  rw [hF.1]
  have hex : (1 : ℝ) ≤ Real.exp q := Real.one_le_exp h0'
  generalize Real.exp (q : ℝ) = w at *
  obtain ⟨b3, b4⟩ := abs_le.mp b2
  have hs0 : 0 ≤ s := by norm_num at b4; linarith
  rw [abs_of_nonneg hs0] at e
  obtain ⟨e1, e2⟩ := abs_le.mp e
  rw [abs_le]
  norm_num at *
  constructor <;> nlinarith

/-- The logarithm of the code for 52 digits. -/
def exLg (x : DW) : Option DW :=
  logAgm exU52 (estSqrt exU52 exDoubleK (sqK 53)) (estInv exU52 exDoubleK) 15 exFloatK exL10 exL2 exU52pi exU52ln 2 x

def exY0 : DW := { data := [1, 64872127, 7001281, 94164335, 58217249, 81069564, 81933593, 75000000, 0, 0], exp := 0, neg := false, prec := 10 }
def exY1 : DW := { data := [1, 64872127, 7001281, 94164335, 58217249, 81069564, 81933593, 75000000, 0, 0], exp := 0, neg := false, prec := 5 }
def exY2 : DW := { data := [1, 64872127, 7001281, 46848650, 78781415, 81069564, 81933593, 75000000, 0, 0], exp := 0, neg := false, prec := 9 }
def exY3 : DW := { data := [1, 64872127, 7001281, 46848650, 78781416, 35716537, 76100710, 18862437, 62716579, 0], exp := 0, neg := false, prec := 10 }
def exR1 : DW := { data := [50000000, 0, 28698413, 51307717, 81612040, 28865398, 29957069, 61193074, 77901504, 0], exp := -8, neg := false, prec := 10 }
def exR2 : DW := { data := [49999999, 99999999, 99999999, 99999999, 66854935, 45038976, 6865069, 21997051, 91992004, 0], exp := -8, neg := false, prec := 10 }
def exR3 : DW := { data := [49999999, 99999999, 99999999, 99999999, 99999999, 99999999, 99999999, 99999972, 23139820, 0], exp := -8, neg := false, prec := 10 }

theorem exArg : exp2Arg exU52 (estInv exU52 exDoubleK) 15 exU52ln (half exU52) = half exU52 := by decide +kernel
theorem exBegin : exp2Start exU52 (estInv exU52 exDoubleK) 15 exDoubleK exDoubleK (1 / 2 ^ 1022) (exExp exDoubleK) 19 (half exU52) = some exY0 := by
  decide +kernel
theorem exLg1 : exLg exY1 = some exR1 := by decide +kernel
theorem exLg2 : exLg exY2 = some exR2 := by decide +kernel
theorem exLg3 : exLg exY3 = some exR3 := by decide +kernel

theorem exStep1 : exp2Step exU52 exLg 14 exY0 (half exU52) = some ({ exY2 with prec := 5 }, { half exU52 with prec := 5 }) := by
  have h : precision exU52 exY0 ((14 : ℕ) * 2 + min (exU52.ed + 1) 9) = exY1 := by decide +kernel
  unfold exp2Step
  simp only [h, exLg1, Option.map_some]
  decide +kernel
theorem exStep2 : exp2Step exU52 exLg 28 { exY2 with prec := 5 } { half exU52 with prec := 5 } =
    some ({ exY3 with prec := 9 }, { half exU52 with prec := 9 }) := by
  have h : precision exU52 { exY2 with prec := 5 } ((28 : ℕ) * 2 + min (exU52.ed + 1) 9) = exY2 := by decide +kernel
  unfold exp2Step
  simp only [h, exLg2, Option.map_some]
  decide +kernel
theorem exStep3 : ∃ y, exp2Step exU52 exLg 56 { exY3 with prec := 9 } { half exU52 with prec := 9 } = some y := by
  have h : precision exU52 { exY3 with prec := 9 } ((56 : ℕ) * 2 + min (exU52.ed + 1) 9) = exY3 := by decide +kernel
  unfold exp2Step
  simp only [h, exLg3, Option.map_some]
  exact ⟨_, rfl⟩

theorem exArgs : exp2Args exU52 exLg 80 14 exY0 (half exU52) = [exY1, exY2, exY3] := by
  have h1 : precision exU52 exY0 ((14 : ℕ) * 2 + min (exU52.ed + 1) 9) = exY1 := by decide +kernel
  have h2 : precision exU52 { exY2 with prec := 5 } ((28 : ℕ) * 2 + min (exU52.ed + 1) 9) = exY2 := by decide +kernel
  have h3 : precision exU52 { exY3 with prec := 9 } ((56 : ℕ) * 2 + min (exU52.ed + 1) 9) = exY3 := by decide +kernel
  obtain ⟨y, hy⟩ := exStep3
  rw [exp2Args, dif_pos (by norm_num)]
  dsimp only
  rw [h1, exStep1]
  dsimp only
  rw [exp2Args, dif_pos (by norm_num)]
  dsimp only
  rw [show 14 * 2 = 28 from rfl, h2, exStep2]
  dsimp only
  rw [exp2Args, dif_pos (by norm_num)]
  dsimp only
  rw [show 28 * 2 = 56 from rfl, h3, hy]
  dsimp only
  rw [exp2Args, dif_neg (by norm_num)]

/-- e^(-1/2), from the series. -/
def exE : ℚ := ((List.range 40).map fun i => (-1 / 2 : ℚ) ^ i / i.factorial).sum

theorem exE_close : |Real.exp (-1 / 2) - (exE : ℝ)| ≤ 1 / 10 ^ 59 := by
  have b := Real.exp_bound (x := -1 / 2) (by norm_num [abs_of_neg]) (n := 40) (by norm_num)
  have hs : (exE : ℝ) = ∑ m ∈ Finset.range 40, (-1 / 2 : ℝ) ^ m / m.factorial := by
    unfold exE
    rw [Rat.cast_list_sum]
    simp only [List.range_succ, Finset.sum_range_succ, List.map_append, List.sum_append, List.map_cons, List.map_nil, List.sum_cons, List.sum_nil, List.range_zero, Finset.sum_range_zero]
    push_cast
    simp only [add_zero, zero_add]
  rw [← hs] at b
  refine b.trans ?_
  norm_num [Nat.factorial, abs_of_neg]

/-- A logarithm near 1/2, by the first two terms of the series. -/
theorem log_near_half {a r d : ℚ} (ha : 1 < a) (ha2 : a < 2) (hw : |a * exE - 1| ≤ 1 / 10 ^ 16)
    (h : |r - 1 / 2 - (a * exE - 1) + (a * exE - 1) ^ 2 / 2| ≤ 1 / 10 ^ 49 + d) : |(r : ℝ) - Real.log a| ≤ 1 / 10 ^ 47 + d := by
  have hwr := (Rat.cast_le (K := ℝ)).mpr hw
  have hr := (Rat.cast_le (K := ℝ)).mpr h
  push_cast at hwr hr
  have ha' : (1 : ℝ) < a := by exact_mod_cast ha
  have ha2' : (a : ℝ) < 2 := by exact_mod_cast ha2
  have he := abs_le.mp exE_close
  have hlog : Real.log a = 1 / 2 + Real.log (a * Real.exp (-1 / 2)) := by
    rw [Real.log_mul (by linarith) (Real.exp_pos _).ne', Real.log_exp]; ring
  rw [hlog]
  generalize Real.exp (-1 / 2) = e at *
  generalize (exE : ℝ) = q at *
  generalize (a : ℝ) = A at *
  have hd : |A * e - A * q| ≤ 2 / 10 ^ 59 := by
    rw [← mul_sub, abs_mul, abs_of_pos (by linarith)]
    have := mul_le_mul ha2'.le (abs_le.mpr he) (abs_nonneg _) (by norm_num)
    linarith
  obtain ⟨d1, d2⟩ := abs_le.mp hd
  obtain ⟨w1, w2⟩ := abs_le.mp hwr
  set x : ℝ := 1 - A * e with hx
  have hxb : |x| ≤ 2 / 10 ^ 16 := by
    rw [abs_le]; norm_num at *; constructor <;> linarith
  have hs := Real.abs_log_sub_add_sum_range_le (x := x) (by norm_num at hxb ⊢; linarith) 2
  rw [show A * e = 1 - x by rw [hx]; ring]
  have hs2 : |x| ^ (2 + 1) / (1 - |x|) ≤ 9 / 10 ^ 48 := by
    have h3 : |x| ^ 3 ≤ (2 / 10 ^ 16) ^ 3 := pow_le_pow_left₀ (abs_nonneg _) hxb 3
    rw [div_le_iff₀ (by norm_num at hxb ⊢; linarith)]
    norm_num at h3 hxb ⊢
    linarith
  have hs3 := hs.trans hs2
  simp only [Finset.sum_range_succ, Finset.sum_range_zero] at hs3
  norm_num at hs3
  obtain ⟨s1, s2⟩ := abs_le.mp hs3
  obtain ⟨r1, r2⟩ := abs_le.mp hr
  have hxw : A * q - 1 = -x + (A * q - A * e) := by rw [hx]; ring
  set t := A * q - A * e with ht
  have ht1 : |t| ≤ 2 / 10 ^ 59 := by rw [ht, abs_sub_comm]; exact hd
  have hsq : |(A * q - 1) ^ 2 / 2 - x ^ 2 / 2| ≤ 1 / 10 ^ 58 := by
    rw [hxw, show (-x + t) ^ 2 / 2 - x ^ 2 / 2 = t * (t / 2 - x) by ring, abs_mul]
    have : |t / 2 - x| ≤ 1 := by
      obtain ⟨t1, t2⟩ := abs_le.mp ht1
      obtain ⟨x1, x2⟩ := abs_le.mp hxb
      rw [abs_le]; norm_num at *; constructor <;> linarith
    have := mul_le_mul ht1 this (abs_nonneg _) (by norm_num)
    norm_num at this ⊢; linarith
  obtain ⟨q1, q2⟩ := abs_le.mp hsq
  rw [hxw] at r1 r2 q1 q2
  obtain ⟨t1, t2⟩ := abs_le.mp ht1
  rw [abs_le]
  norm_num at *
  constructor <;> linarith

theorem exLogs : ∀ p ∈ [(exY1, exR1), (exY2, exR2), (exY3, exR3)],
    1 < p.1.val exU52 ∧ p.1.val exU52 < 2 ∧ |p.1.val exU52 * exE - 1| ≤ 1 / 10 ^ 16 ∧
    |p.2.val exU52 - 1 / 2 - (p.1.val exU52 * exE - 1) + (p.1.val exU52 * exE - 1) ^ 2 / 2| ≤ 1 / 10 ^ 49 + 10 * (10 : ℚ) ^ (-((exU52.ed : ℤ) * ((p.1.prec : ℤ) - 1))) := by decide +kernel

set_option exponentiation.threshold 1100 in
/-- The path is run with 52 digits, and the theorem gives 47 correct digits of e^(1/2). -/
example : ∃ r, expHigh exU52 (estInv exU52 exDouble) exDouble.digits10 exDouble exDouble (1 / 2 ^ 1022) (exExp exDouble) 19 exLg exU52ln
      (half exU52) = some r ∧ |(r.val exU52 : ℝ) - Real.exp (1 / 2)| ≤ 7 / 10 ^ 47 := by
  have hlnF : Full exU52 exU52ln := ⟨⟨rfl, by decide, by decide, by decide, by decide, by decide⟩, by decide⟩
  have hv := half_val exU52
  have hX : exp2Arg exU52 (estInv exU52 exDouble) exDouble.digits10 exU52ln (half exU52) = half exU52 := by
    rw [← exDoubleK_eq, show exDoubleK.digits10 = 15 from rfl, exArg]
  have hw : ∀ p ∈ [(exY1, exR1), (exY2, exR2), (exY3, exR3)], p.1.prec ≤ p.2.prec ∧ 0 ≤ p.2.val exU52 := by decide +kernel
  have hwf : ∀ p ∈ [(exY1, exR1), (exY2, exR2), (exY3, exR3)], WF exU52 p.2 := by
    intro p hp
    simp only [List.mem_cons, List.not_mem_nil, or_false] at hp
    rcases hp with rfl | rfl | rfl <;> exact ⟨rfl, by decide, by decide, by decide, by decide, by decide⟩
  obtain ⟨r, a1, -, -, a2⟩ := exp_high_accuracy_partial exU52 exDouble exDouble
    ⟨Or.inr ⟨rfl, rfl, rfl⟩, by decide, ⟨by decide, by decide⟩, by decide, by decide⟩ (le_refl _) (le_refl _) (1 / 2 ^ 1022) (by norm_num)
    (exExp exDouble) (exExp_ok _ ⟨rfl, rfl, rfl⟩) 19 (by norm_num) exLg exU52ln hlnF (14 / 10 ^ 52) (by norm_num) exU52_ln_err (half exU52)
    (half_full _) (by rw [hv]; norm_num) (by rw [hv]; norm_num) (by rw [hv]; norm_num [show exU52.maxExp = 2 ^ 59 from rfl])
    (by
      rw [hv]
      refine le_trans (zpow_le_zpow_right₀ (by norm_num) (?_ : _ ≤ (-1 : ℤ))) (by norm_num)
      norm_num [show exU52.maxExp = 2 ^ 59 from rfl, show exU52.ed = 8 from rfl])
    (by
      rw [hv]
      refine le_trans (zpow_le_zpow_right₀ (by norm_num) (?_ : _ ≤ (-1 : ℤ))) (by norm_num)
      norm_num [show exU52.N = 10 from rfl, show exU52.ed = 8 from rfl])
    (1 / 10 ^ 47) (by norm_num) (by rw [hX, hv]; norm_num) (by
      intro y0 hy0 a ha
      rw [hX] at hy0 ha
      rw [← exDoubleK_eq, show exDoubleK.digits10 = 15 from rfl, exBegin, Option.some.injEq] at hy0
      rw [← hy0, show exU52.N * exU52.ed = 80 from rfl, show exDouble.digits10 - 1 = 14 from rfl, exArgs] at ha
      have key : ∀ p ∈ [(exY1, exR1), (exY2, exR2), (exY3, exR3)], exLg p.1 = some p.2 → ∃ r, exLg p.1 = some r ∧ WF exU52 r ∧
          p.1.prec ≤ r.prec ∧ 0 ≤ r.val exU52 ∧ |(r.val exU52 : ℝ) - Real.log (p.1.val exU52)| ≤ 1 / 10 ^ 47 +
            10 * (10 : ℝ) ^ (-((exU52.ed : ℤ) * ((p.1.prec : ℤ) - 1))) := by
        intro p hp hr
        obtain ⟨l1, l2, l3, l4⟩ := exLogs p hp
        refine ⟨p.2, hr, hwf p hp, (hw p hp).1, (hw p hp).2, (log_near_half l1 l2 l3 l4).trans (le_of_eq ?_)⟩
        push_cast; rfl
      simp only [List.mem_cons, List.not_mem_nil, or_false] at ha
      rcases ha with rfl | rfl | rfl
      · exact key (exY1, exR1) (by simp) exLg1
      · exact key (exY2, exR2) (by simp) exLg2
      · exact key (exY3, exR3) (by simp) exLg3) (by norm_num)
  refine ⟨r, a1, ?_⟩
  rw [hv, show exU52.digits10 = 52 from rfl, show exU52.ed = 8 from rfl] at a2
  push_cast at a2
  refine a2.trans ?_
  have : Real.exp (1 / 2) ≤ 3 := (Real.exp_le_exp.mpr (by norm_num : (1 / 2 : ℝ) ≤ 1)).trans Real.exp_one_lt_three.le
  norm_num at this ⊢
  linarith

/-- The simple parts hold of `decwide_t<4>` with 8-bit limbs. -/
example (lg : DW → Option DW) (l : DW) : expHigh exC (estInv exC exDouble) 15 exDouble exDouble (1 / 2 ^ 1022) (exExp exDouble) 2 lg l (zero exC) = some (one exC) :=
  exp_high_zero exC _ _ _ _ _ _ _ lg l _ (zero_WF _).toWF (zero_val _) rfl

end WD
