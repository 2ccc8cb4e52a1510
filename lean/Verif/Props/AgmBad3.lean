import Verif.Props.AgmBad2
/-
  C59, C60: witnesses, evaluated by the kernel, against the accuracy of `log` above 51 digits (continued). The rounds of the
  loops are evaluated three at a time to keep the memory needed small.
-/
namespace WD
open DW

/-- 80 digits, 8-bit limbs. -/
def exU80 : Cfg := { L := .u8, digits10 := 80, maxExp := 2 ^ 59 }
def exU80pi : DW := { data := [3, 14, 15, 92, 65, 35, 89, 79, 32, 38, 46, 26, 43, 38, 32, 79, 50, 28, 84, 19, 71, 69, 39, 93, 75, 10, 58, 20, 97, 49, 44, 59, 23, 7, 81, 64, 6, 28, 62, 9, 0, 12, 5], exp := 0, neg := false, prec := 43 }
def exU80ln : DW := { data := [69, 31, 47, 18, 5, 59, 94, 53, 9, 41, 72, 32, 12, 14, 58, 17, 65, 68, 7, 55, 0, 13, 43, 60, 25, 52, 54, 12, 6, 80, 0, 94, 93, 39, 36, 21, 96, 96, 94, 73, 93, 44, 30], exp := -2, neg := false, prec := 43 }
def exU80fix : DW := { data := [1, 69, 11, 79, 15, 73, 98, 20, 66, 45, 38, 34, 63, 78, 57, 15, 17, 41, 82, 89, 99, 48, 30, 88, 52, 16, 25, 31, 41, 26, 92, 74, 17, 68, 88, 9, 52, 88, 10, 83, 97, 92, 24], exp := -2, neg := false, prec := 43 }
def exU80log : DW := { data := [93, 57, 48, 69, 37, 55, 92, 61, 67, 71, 32, 63, 36, 39, 68, 53, 83, 66, 90, 19, 25, 18, 13, 86, 34, 45, 93, 6, 29, 18, 1, 28, 16, 8, 13, 89, 65, 90, 87, 85, 15, 70, 0], exp := 0, neg := false, prec := 43 }
def exU80b0 : DW := (ldexp exU80 (estInv exU80 exDoubleK) 15 (precision exU80 (one exU80) ((ofUnsigned exU80 32 2).prec * exU80.ed : ℕ))
  (2 - logM exU80 exFloatK exL10 exL2 (ofUnsigned exU80 32 2))).getD (zero exU80)

theorem exU80_pi : (calcPi exU80 (estSqrt exU80 exDoubleK (sqK 53)) (estInv exU80 exDoubleK) 15).1 = exU80pi := by decide +kernel
def exU80bl : DW := { data := [3, 67, 34, 19, 84, 63, 19, 64, 84, 62, 40, 23, 1, 67, 88, 19, 51, 77, 43, 18, 33, 29, 86, 49, 12, 77, 35, 4, 71, 48, 49, 8, 21, 20, 5, 39, 35, 79, 60, 22, 41, 51, 64], exp := -40, neg := false, prec := 43 }
def exU80s1a : DW := { data := [12, 50, 0, 0, 0, 48, 94, 66, 13, 40, 72, 30, 3, 99, 72, 86, 81, 29, 96, 42, 15, 18, 74, 51, 83, 78, 75, 41, 58, 24, 89, 2, 55, 65, 91, 80, 45, 93, 75, 95, 1, 3, 79], exp := -2, neg := false, prec := 43 }
def exU80s1b : DW := { data := [4, 94, 70, 50, 30, 30, 81, 54, 93, 23, 87, 77, 52, 54, 13, 5, 40, 29, 76, 26, 49, 2, 36, 83, 79, 49, 65, 72, 77, 82, 33, 3, 70, 54, 8, 45, 1, 3, 9, 98, 71, 28, 74], exp := -6, neg := false, prec := 43 }
def exU80s2a : DW := { data := [1, 93, 27, 57, 19, 71, 40, 93, 94, 84, 4, 7, 19, 61, 82, 92, 63, 88, 3, 21, 25, 9, 10, 64, 51, 70, 88, 77, 10, 4, 59, 13, 20, 90, 72, 34, 97, 6, 95, 41, 40, 50, 67], exp := -2, neg := false, prec := 43 }
def exU80s2b : DW := { data := [1, 48, 94, 63, 73, 48, 13, 38, 41, 20, 49, 0, 73, 48, 16, 27, 65, 12, 63, 87, 71, 34, 85, 81, 57, 65, 56, 21, 40, 5, 68, 47, 3, 0, 68, 73, 10, 69, 59, 86, 79, 48, 78], exp := -2, neg := false, prec := 43 }
def exU80s3a : DW := { data := [1, 70, 38, 94, 79, 1, 69, 12, 55, 33, 48, 67, 57, 53, 39, 95, 74, 88, 11, 20, 83, 65, 16, 88, 47, 74, 21, 8, 32, 2, 22, 50, 91, 81, 67, 89, 24, 46, 25, 20, 6, 36, 7], exp := -2, neg := false, prec := 43 }
def exU80s3b : DW := { data := [1, 70, 38, 94, 79, 1, 52, 7, 28, 19, 61, 67, 84, 81, 9, 34, 99, 39, 39, 18, 71, 69, 47, 39, 86, 72, 47, 46, 79, 49, 60, 40, 35, 93, 26, 42, 10, 66, 60, 13, 61, 20, 49], exp := -2, neg := false, prec := 43 }
def exU80s4a : DW := { data := [1, 70, 38, 94, 79, 1, 60, 59, 91, 76, 55, 17, 60, 50, 59, 8, 52, 13, 57, 20, 74, 66, 71, 71, 89, 39, 68, 36, 16, 1, 56, 59, 69, 70, 15, 7, 34, 48, 16, 93, 59, 5, 10], exp := -2, neg := false, prec := 43 }
def exU80s4b : DW := { data := [1, 70, 38, 94, 79, 1, 60, 59, 91, 76, 55, 17, 60, 50, 59, 8, 52, 13, 57, 20, 74, 66, 71, 71, 89, 39, 68, 36, 16, 1, 56, 59, 69, 70, 15, 7, 34, 48, 16, 93, 59, 5, 11], exp := -2, neg := false, prec := 43 }
theorem exU80_bl : ldexp exU80 (estInv exU80 exDoubleK) 15 (one exU80) (2 - lnTwoM exU80 exFloatK) = some exU80bl := by decide +kernel
theorem exU80_runl1 : agmRun exU80 (estSqrt exU80 exDoubleK (sqK 53)) (estInv exU80 exDoubleK) 15 (agmGoal exU80) 3 (ofUnsigned exU80 32 1) exU80bl = some (exU80s1a, exU80s1b) := by decide +kernel
theorem exU80_runl2 : agmRun exU80 (estSqrt exU80 exDoubleK (sqK 53)) (estInv exU80 exDoubleK) 15 (agmGoal exU80) 3 exU80s1a exU80s1b = some (exU80s2a, exU80s2b) := by decide +kernel
theorem exU80_runl3 : agmRun exU80 (estSqrt exU80 exDoubleK (sqK 53)) (estInv exU80 exDoubleK) 15 (agmGoal exU80) 3 exU80s2a exU80s2b = some (exU80s3a, exU80s3b) := by decide +kernel
theorem exU80_runl4 : agmRun exU80 (estSqrt exU80 exDoubleK (sqK 53)) (estInv exU80 exDoubleK) 15 (agmGoal exU80) 3 exU80s3a exU80s3b = some (exU80s4a, exU80s4b) := by decide +kernel
theorem exU80_runl : agmRun exU80 (estSqrt exU80 exDoubleK (sqK 53)) (estInv exU80 exDoubleK) 15 (agmGoal exU80) 12 (ofUnsigned exU80 32 1) exU80bl = some (exU80s4a, exU80s4b) :=
  (agmRun_add exU80_runl1 (agmRun_add exU80_runl2 (agmRun_add exU80_runl3 exU80_runl4)))
theorem exU80_dg : agmDigits (subAssign exU80 exU80s4a exU80s4b) > agmGoal exU80 := by decide +kernel
theorem exU80_endl : divSLL exU80 (estInv exU80 exDoubleK) 15 (mulAssign exU80 exU80pi (calcInv exU80 (estInv exU80 exDoubleK) 15
    (addAssign exU80 exU80s4a exU80s4b))) (lnTwoM exU80 exFloatK) = exU80ln := by decide +kernel
theorem exU80_ln : calcLnTwo exU80 (estSqrt exU80 exDoubleK (sqK 53)) (estInv exU80 exDoubleK) 15 exFloatK exU80pi = some (exU80ln, some 12) := by
  rw [calcLnTwo_eq exU80_bl, show (128 : ℕ) = 115 + 1 + 12 from rfl, agmLoop_run 12 (115 + 1) _ _ _ _ exU80_runl, agmLoop]
  simp only [if_pos exU80_dg]
  rw [exU80_endl]
  rfl
theorem exU80_b : ldexp exU80 (estInv exU80 exDoubleK) 15 (precision exU80 (one exU80) ((ofUnsigned exU80 32 2).prec * exU80.ed : ℕ))
  (2 - logM exU80 exFloatK exL10 exL2 (ofUnsigned exU80 32 2)) = some exU80b0 := by decide +kernel
def exU80c : DW := { data := [1, 83, 67, 9, 92, 31, 59, 82, 42, 31, 20, 11, 50, 83, 94, 9, 75, 88, 71, 59, 16, 64, 93, 24, 56, 38, 67, 52, 35, 74, 24, 54, 10, 60, 2, 69, 67, 89, 80, 11, 20, 75, 82], exp := -40, neg := false, prec := 43 }
def exU80r1a : DW := { data := [12, 50, 0, 0, 0, 41, 15, 90, 31, 75, 23, 8, 8, 47, 5, 97, 90, 84, 20, 78, 97, 88, 76, 66, 33, 20, 33, 75, 92, 89, 58, 68, 92, 61, 19, 39, 74, 53, 19, 93, 8, 20, 75], exp := -2, neg := false, prec := 43 }
def exU80r1b : DW := { data := [4, 53, 64, 65, 12, 98, 62, 67, 49, 67, 70, 33, 10, 89, 88, 98, 8, 85, 75, 22, 84, 25, 89, 17, 4, 19, 79, 70, 76, 72, 13, 44, 58, 42, 34, 19, 88, 65, 25, 9, 70, 74, 18], exp := -6, neg := false, prec := 43 }
def exU80r2a : DW := { data := [1, 92, 44, 6, 74, 65, 29, 48, 57, 46, 50, 77, 58, 57, 97, 76, 20, 27, 61, 50, 6, 62, 96, 4, 73, 69, 90, 85, 73, 56, 75, 46, 60, 44, 21, 99, 13, 97, 94, 78, 60, 77, 54], exp := -2, neg := false, prec := 43 }
def exU80r2b : DW := { data := [1, 47, 30, 27, 51, 25, 80, 70, 31, 81, 47, 50, 30, 92, 59, 30, 42, 28, 21, 32, 8, 58, 92, 10, 51, 97, 85, 22, 29, 83, 11, 34, 93, 44, 2, 18, 70, 79, 31, 94, 95, 70, 38], exp := -2, neg := false, prec := 43 }
def exU80r3a : DW := { data := [1, 69, 11, 79, 15, 74, 8, 58, 99, 77, 95, 30, 68, 10, 74, 86, 73, 90, 87, 30, 59, 3, 87, 20, 12, 60, 93, 22, 90, 11, 9, 69, 39, 11, 47, 91, 73, 49, 56, 42, 5, 57, 2], exp := -2, neg := false, prec := 43 }
def exU80r3b : DW := { data := [1, 69, 11, 79, 15, 73, 87, 82, 33, 12, 81, 38, 91, 33, 92, 16, 78, 15, 60, 44, 89, 97, 86, 23, 93, 35, 28, 70, 18, 15, 13, 58, 84, 16, 67, 93, 58, 49, 28, 56, 65, 71, 91], exp := -2, neg := false, prec := 43 }
theorem exU80_c : divAssign exU80 (estInv exU80 exDoubleK) 15 exU80b0 (ofUnsigned exU80 32 2) = exU80c := by decide +kernel
theorem exU80_run1 : agmRun exU80 (estSqrt exU80 exDoubleK (sqK 53)) (estInv exU80 exDoubleK) 15 (logGoal exU80 (ofUnsigned exU80 32 2)) 3 (one exU80) exU80c = some (exU80r1a, exU80r1b) := by decide +kernel
theorem exU80_run2 : agmRun exU80 (estSqrt exU80 exDoubleK (sqK 53)) (estInv exU80 exDoubleK) 15 (logGoal exU80 (ofUnsigned exU80 32 2)) 3 exU80r1a exU80r1b = some (exU80r2a, exU80r2b) := by decide +kernel
theorem exU80_run3 : agmRun exU80 (estSqrt exU80 exDoubleK (sqK 53)) (estInv exU80 exDoubleK) 15 (logGoal exU80 (ofUnsigned exU80 32 2)) 3 exU80r2a exU80r2b = some (exU80r3a, exU80r3b) := by decide +kernel
theorem exU80_run4 : agmRun exU80 (estSqrt exU80 exDoubleK (sqK 53)) (estInv exU80 exDoubleK) 15 (logGoal exU80 (ofUnsigned exU80 32 2)) 3 exU80r3a exU80r3b = some (exU80fix, exU80fix) := by decide +kernel
theorem exU80_run : agmRun exU80 (estSqrt exU80 exDoubleK (sqK 53)) (estInv exU80 exDoubleK) 15 (logGoal exU80 (ofUnsigned exU80 32 2)) 12 (one exU80) exU80c = some (exU80fix, exU80fix) :=
  (agmRun_add exU80_run1 (agmRun_add exU80_run2 (agmRun_add exU80_run3 exU80_run4)))
theorem exU80_fix : agmRun exU80 (estSqrt exU80 exDoubleK (sqK 53)) (estInv exU80 exDoubleK) 15 (logGoal exU80 (ofUnsigned exU80 32 2)) 1
    exU80fix exU80fix = some (exU80fix, exU80fix) := by decide +kernel
theorem exU80_end : subAssign exU80 (mulAssign exU80 (calcInv exU80 (estInv exU80 exDoubleK) 15 exU80fix) exU80pi)
    (mulSLL exU80 exU80ln (logM exU80 exFloatK exL10 exL2 (ofUnsigned exU80 32 2))) = exU80log := by decide +kernel

/-- C60 (finding F55). `log(2)` of `decwide_t<80, uint8_t, ..., double>` is 93.57... although `ln_two` of that type is right. -/
theorem log_agm_wrong : ∃ pi ln2 r, pi = (calcPi exU80 (estSqrt exU80 exDouble (sqK 53)) (estInv exU80 exDouble) exDouble.digits10).1 ∧
    calcLnTwo exU80 (estSqrt exU80 exDouble (sqK 53)) (estInv exU80 exDouble) exDouble.digits10 exFloat pi = some (ln2, some 12) ∧
    |ln2.val exU80 - Real.log 2| < 1 / 10 ^ 76 ∧
    logAgm exU80 (estSqrt exU80 exDouble (sqK 53)) (estInv exU80 exDouble) exDouble.digits10 exFloat exL10 exL2 pi ln2 2
      (ofUnsigned exU80 32 2) = some r ∧
    92 < r.val exU80 - Real.log 2 := by
  have l1 := log_two_interval.1
  have l3 := log_two_interval.2
  refine ⟨exU80pi, exU80ln, exU80log, ?_, ?_, ?_, ?_, ?_⟩
  · rw [← exDoubleK_eq, show exDoubleK.digits10 = 15 from rfl, exU80_pi]
  · rw [← exDoubleK_eq, ← exFloatK_eq, show exDoubleK.digits10 = 15 from rfl, exU80_ln]
  · have h : (693147180559945309417232121458176568075500134360255254120680009493393621969694 / 10 ^ 78 : ℚ) < exU80ln.val exU80 ∧
      exU80ln.val exU80 < (693147180559945309417232121458176568075500134360255254120680009493393621969695 / 10 ^ 78 : ℚ) := by decide +kernel
    have h1 : ((693147180559945309417232121458176568075500134360255254120680009493393621969694 / 10 ^ 78 : ℚ) : ℝ) < (exU80ln.val exU80 : ℝ) := by exact_mod_cast h.1
    have h2 : (exU80ln.val exU80 : ℝ) < ((693147180559945309417232121458176568075500134360255254120680009493393621969695 / 10 ^ 78 : ℚ) : ℝ) := by exact_mod_cast h.2
    rw [abs_lt]
    norm_num at h1 h2 l1 l3 ⊢
    constructor <;> linarith
  · rw [logAgm, if_neg (by decide +kernel), if_pos (by decide +kernel), ← exDoubleK_eq, ← exFloatK_eq,
      show exDoubleK.digits10 = 15 from rfl, logAgmAbove_eq exU80_b, exU80_c, show (128 : ℕ) = 116 + 12 from rfl,
      agmLoop_run 12 116 _ _ _ _ exU80_run, agmLoop_fix exU80_fix, exU80_end]
    rfl
  · have h : (93 : ℚ) < exU80log.val exU80 := by decide +kernel
    have h2 : ((93 : ℚ) : ℝ) < (exU80log.val exU80 : ℝ) := by exact_mod_cast h
    norm_num at h2 l3 ⊢
    linarith

end WD
