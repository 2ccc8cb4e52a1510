import Verif.Props.AgmBad2
/-
  C60: `log` of very large numbers above 51 digits, evaluated by the kernel. The loop of the arithmetic-geometric mean ends when the
  difference of the means is small compared with one; for large x the means themselves are small (about π/(2 log x)).
-/
namespace WD
open DW

/-- 2·10^(10^17) in `decwide_t<52>`. -/
def exHuge : DW := { data := [2, 0, 0, 0, 0, 0, 0, 0, 0, 0], exp := 100000000000000000, neg := false, prec := 10 }
def exHugeLog : DW := { data := [23, 2585092, 99404569, 9494632, 60283817, 30177342, 16055159, 42949380, 1976240, 11808890], exp := 16, neg := false, prec := 10 }
def exHugeB0 : DW := { data := [50000000, 0, 0, 0, 0, 0, 0, 0, 0, 0], exp := -8, neg := false, prec := 10 }
def exHuge0a : DW := one exU52
def exHuge0b : DW := { data := [25000000, 0, 0, 0, 0, 0, 0, 0, 0, 0], exp := -100000000000000008, neg := false, prec := 10 }
def exHuge1a : DW := { data := [195312, 50000000, 0, 0, 0, 0, 0, 0, 0, 0], exp := -8, neg := false, prec := 10 }
def exHuge1b : DW := { data := [777030, 79959658, 84184784, 98192361, 6743317, 4933158, 93038995, 90517105, 82323518, 49114828], exp := -195312500000008, neg := false, prec := 10 }
def exHuge2a : DW := { data := [381, 46972656, 25000000, 0, 0, 0, 0, 0, 0, 0], exp := -8, neg := false, prec := 10 }
def exHuge2b : DW := { data := [4, 82520174, 29224706, 67904256, 3182943, 73461908, 48950384, 80416745, 34399546, 38419151], exp := -381469726568, neg := false, prec := 10 }
def exHuge3a : DW := { data := [74505805, 96923828, 12500000, 0, 0, 0, 0, 0, 0, 0], exp := -16, neg := false, prec := 10 }
def exHuge3b : DW := { data := [60515, 59210501, 97038367, 40820965, 27334839, 25404085, 48538819, 72885257, 70615049, 88452776], exp := -745058072, neg := false, prec := 10 }
def exHuge4a : DW := { data := [145519, 15228366, 85180664, 6250000, 0, 0, 0, 0, 0, 0], exp := -16, neg := false, prec := 10 }
def exHuge4b : DW := { data := [1746398, 95257071, 89675493, 60969248, 85553370, 25039043, 55221282, 26570769, 80409771, 19784728], exp := -1455208, neg := false, prec := 10 }
def exHuge5a : DW := { data := [284, 21709430, 40400743, 48449707, 3125000, 0, 0, 0, 0, 0], exp := -16, neg := false, prec := 10 }
def exHuge5b : DW := { data := [7, 66950166, 47039254, 6444680, 4218091, 39923040, 88009949, 50074679, 78781917, 46597251], exp := -2856, neg := false, prec := 10 }
def exHuge6a : DW := { data := [1, 11022302, 46251565, 40423909, 631387, 14512335, 7557223, 54445246, 39684204, 10155760], exp := -16, neg := false, prec := 10 }
def exHuge6b : DW := { data := [350945, 73987441, 50907024, 71295193, 36400872, 4343037, 29354292, 10000481, 69193573, 9760195], exp := -32, neg := false, prec := 10 }
def exHuge7a : DW := { data := [6821881, 76920920, 66552946, 96902334, 70747602, 54652567, 78643382, 99877153, 74043393, 67216794], exp := -24, neg := false, prec := 10 }
def exHuge7b : DW := { data := [6821881, 76920920, 66552758, 56199559, 66269640, 87574467, 15343535, 87486905, 89378730, 62551660], exp := -24, neg := false, prec := 10 }
theorem exHuge_run0 : agmRun exU52 (estSqrt exU52 exDoubleK (sqK 53)) (estInv exU52 exDoubleK) 15 (agmGoal exU52) 9 exHuge0a exHuge0b = some (exHuge1a, exHuge1b) := by decide +kernel
theorem exHuge_run1 : agmRun exU52 (estSqrt exU52 exDoubleK (sqK 53)) (estInv exU52 exDoubleK) 15 (agmGoal exU52) 9 exHuge1a exHuge1b = some (exHuge2a, exHuge2b) := by decide +kernel
theorem exHuge_run2 : agmRun exU52 (estSqrt exU52 exDoubleK (sqK 53)) (estInv exU52 exDoubleK) 15 (agmGoal exU52) 9 exHuge2a exHuge2b = some (exHuge3a, exHuge3b) := by decide +kernel
theorem exHuge_run3 : agmRun exU52 (estSqrt exU52 exDoubleK (sqK 53)) (estInv exU52 exDoubleK) 15 (agmGoal exU52) 9 exHuge3a exHuge3b = some (exHuge4a, exHuge4b) := by decide +kernel
theorem exHuge_run4 : agmRun exU52 (estSqrt exU52 exDoubleK (sqK 53)) (estInv exU52 exDoubleK) 15 (agmGoal exU52) 9 exHuge4a exHuge4b = some (exHuge5a, exHuge5b) := by decide +kernel
theorem exHuge_run5 : agmRun exU52 (estSqrt exU52 exDoubleK (sqK 53)) (estInv exU52 exDoubleK) 15 (agmGoal exU52) 8 exHuge5a exHuge5b = some (exHuge6a, exHuge6b) := by decide +kernel
theorem exHuge_run6 : agmRun exU52 (estSqrt exU52 exDoubleK (sqK 53)) (estInv exU52 exDoubleK) 15 (agmGoal exU52) 8 exHuge6a exHuge6b = some (exHuge7a, exHuge7b) := by decide +kernel
theorem exHuge_run : agmRun exU52 (estSqrt exU52 exDoubleK (sqK 53)) (estInv exU52 exDoubleK) 15 (agmGoal exU52) 61 (one exU52) exHuge0b = some (exHuge7a, exHuge7b) :=
  (agmRun_add exHuge_run0 (agmRun_add exHuge_run1 (agmRun_add exHuge_run2 (agmRun_add exHuge_run3 (agmRun_add exHuge_run4 (agmRun_add exHuge_run5 exHuge_run6))))))
theorem exHuge_stop : agmDigits (subAssign exU52 exHuge7a exHuge7b) > agmGoal exU52 := by decide +kernel
theorem exHuge_b0 : ldexp exU52 (estInv exU52 exDoubleK) 15 (precision exU52 (one exU52) (exHuge.prec * exU52.ed : ℕ)) (2 - logM exU52 exFloatK exL10 exL2 exHuge)
    = some exHugeB0 := by decide +kernel
theorem exHuge_div : divAssign exU52 (estInv exU52 exDoubleK) 15 exHugeB0 exHuge = exHuge0b := by decide +kernel
theorem exHuge_end : subAssign exU52 (mulAssign exU52 (calcInv exU52 (estInv exU52 exDoubleK) 15 (addAssign exU52 exHuge7a exHuge7b)) exU52pi)
    (mulSLL exU52 exU52ln (logM exU52 exFloatK exL10 exL2 exHuge)) = exHugeLog := by decide +kernel

theorem agmLoop_stop {c : Cfg} {estS : DW → DW × DW} {est : DW → DW} {fdig : ℕ} {goal : ℤ} (f : ℕ) (a b : DW)
    (h : agmDigits (subAssign c a b) > goal) : agmLoop c estS est fdig goal (f + 1) a b = (addAssign c a b, some 0) := by
  rw [agmLoop, if_pos h]

theorem exHuge_log : logAgmAbove exU52 (estSqrt exU52 exDoubleK (sqK 53)) (estInv exU52 exDoubleK) 15 exFloatK exL10 exL2 exU52pi exU52ln exHuge = some (exHugeLog, some 61) := by
  rw [logAgmAbove_eq exHuge_b0, exHuge_div, show logGoal exU52 exHuge = agmGoal exU52 from by decide +kernel,
    show (128 : ℕ) = (66 + 1) + 61 from rfl, agmLoop_run 61 (66 + 1) _ _ _ _ exHuge_run, agmLoop_stop 66 _ _ exHuge_stop]
  simp only [exHuge_end]
  rfl

theorem exHuge_val : exHuge.val exU52 = 2 * (10 : ℚ) ^ (100000000000000000 : ℤ) := by
  have key : ∀ e : ℤ, ({ data := [2, 0, 0, 0, 0, 0, 0, 0, 0, 0], exp := e, neg := false, prec := 10 } : DW).val exU52 = 2 * (10 : ℚ) ^ e := by
    intro e
    unfold DW.val
    have h : (limbsVal exU52.B [2, 0, 0, 0, 0, 0, 0, 0, 0, 0] : ℕ) = 2 * 10 ^ 72 := by decide +kernel
    have h2 : (exU52.ed : ℤ) * ((exU52.N : ℤ) - 1) = 72 := by decide +kernel
    rw [h, h2, zpow_sub₀ (by norm_num)]
    norm_num
    ring
  exact key _

/-- C60 (finding F62). `log(2·10^(10^17))` in `decwide_t<52>` (32-bit limbs, double): the run ends by `break` and no product is next
    to a power of the radix, but only 42 of the 52 digits are right, because the loop compares the difference of the two means with
    one and not with the means. -/
theorem log_agm_huge_inaccurate : ∃ pi ln2 r, pi = (calcPi exU52 (estSqrt exU52 exDouble (sqK 53)) (estInv exU52 exDouble) exDouble.digits10).1 ∧
    calcLnTwo exU52 (estSqrt exU52 exDouble (sqK 53)) (estInv exU52 exDouble) exDouble.digits10 exFloat pi = some (ln2, some 10) ∧
    logAgm exU52 (estSqrt exU52 exDouble (sqK 53)) (estInv exU52 exDouble) exDouble.digits10 exFloat exL10 exL2 pi ln2 2 exHuge = some r ∧
    exHuge.val exU52 = 2 * (10 : ℚ) ^ (100000000000000000 : ℤ) ∧
    4 / 10 ^ 43 * Real.log (exHuge.val exU52) < Real.log (exHuge.val exU52) - r.val exU52 := by
  refine ⟨exU52pi, exU52ln, exHugeLog, ?_, ?_, ?_, exHuge_val, ?_⟩
  · rw [← exDoubleK_eq, show exDoubleK.digits10 = 15 from rfl, exU52_pi]
  · rw [← exDoubleK_eq, ← exFloatK_eq, show exDoubleK.digits10 = 15 from rfl, exU52_ln]
  · rw [logAgm, if_neg (by decide +kernel), if_pos (by decide +kernel), ← exDoubleK_eq, ← exFloatK_eq,
      show exDoubleK.digits10 = 15 from rfl, exHuge_log]
    rfl
  · have hl : Real.log (exHuge.val exU52) = Real.log 2 + 100000000000000000 * Real.log 10 := by
      rw [exHuge_val]
      have key : ∀ e : ℤ, Real.log ((2 * (10 : ℚ) ^ e : ℚ) : ℝ) = Real.log 2 + e * Real.log 10 := by
        intro e
        push_cast
        rw [Real.log_mul (by norm_num) (by positivity), Real.log_zpow]
      rw [key]
      norm_num
    rw [hl]
    have h : exHugeLog.val exU52 < (230258509299404569094946326028381730177342160552 / 10 ^ 30 : ℚ) := by decide +kernel
    have h2 : (exHugeLog.val exU52 : ℝ) < ((230258509299404569094946326028381730177342160552 / 10 ^ 30 : ℚ) : ℝ) := by exact_mod_cast h
    have h3 := log_ten_interval
    have h4 := log_two_interval
    norm_num at h2 h3 h4 ⊢
    obtain ⟨h31, h32⟩ := h3
    obtain ⟨h41, h42⟩ := h4
    linarith

end WD
