import Verif.Props.AgmBad
/-
  C59, C60: witnesses, evaluated by the kernel, against the accuracy of `ln_two` and `log` above 51 digits (continued).
-/
namespace WD
open DW

/-- `log(10.0F)` and `log(2.0F)` in single precision. -/
def exL10 : ℚ := 9657742 / 2 ^ 22
def exL2 : ℚ := 11629080 / 2 ^ 24

/-- 52 digits, 32-bit limbs. -/
def exU52 : Cfg := { L := .u32, digits10 := 52, maxExp := 2 ^ 59 }
def exU52pi : DW := { data := [3, 14159265, 35897932, 38462643, 38327950, 28841971, 69399375, 10582097, 49446356, 94494751], exp := 0, neg := false, prec := 10 }
def exU52ln : DW := { data := [69314718, 5599453, 9417232, 12145817, 65680755, 134360, 25570950, 58459392, 58459392, 11627906], exp := -8, neg := false, prec := 10 }
def exU52log : DW := { data := [2, 30258509, 29940456, 84017991, 45468436, 42076011, 1488628, 76033888, 97222779, 79410520], exp := 0, neg := false, prec := 10 }

theorem exU52_pi : (calcPi exU52 (estSqrt exU52 exDoubleK (sqK 53)) (estInv exU52 exDoubleK) 15).1 = exU52pi := by decide +kernel
theorem exU52_ln : calcLnTwo exU52 (estSqrt exU52 exDoubleK (sqK 53)) (estInv exU52 exDoubleK) 15 exFloatK exU52pi = some (exU52ln, some 10) := by decide +kernel
theorem exU52_log : logAgmAbove exU52 (estSqrt exU52 exDoubleK (sqK 53)) (estInv exU52 exDoubleK) 15 exFloatK exL10 exL2 exU52pi exU52ln
    (ofUnsigned exU52 32 10) = some (exU52log, some 10) := by decide +kernel

/-- C59 (finding F56). With 52 digits and 32-bit limbs the loop of `calc_ln_two` ends as intended, but the result is off by more
    than 4 units of the last digit: the starting value 2^(2-m), m = 86, is not small enough for the formula. -/
theorem ln_two_inaccurate : ∃ r n, calcLnTwo exU52 (estSqrt exU52 exDouble (sqK 53)) (estInv exU52 exDouble) exDouble.digits10 exFloat
      (calcPi exU52 (estSqrt exU52 exDouble (sqK 53)) (estInv exU52 exDouble) exDouble.digits10).1 = some (r, some n) ∧
    4 / 10 ^ 52 < r.val exU52 - Real.log 2 := by
  refine ⟨exU52ln, 10, ?_, ?_⟩
  · rw [← exDoubleK_eq, ← exFloatK_eq, show exDoubleK.digits10 = 15 from rfl, exU52_pi, exU52_ln]
  · have h : (69314718055994530941723212145817656807550013436025570950 / 10 ^ 56 : ℚ) < exU52ln.val exU52 := by decide +kernel
    have h2 : ((69314718055994530941723212145817656807550013436025570950 / 10 ^ 56 : ℚ) : ℝ) < (exU52ln.val exU52 : ℝ) := by exact_mod_cast h
    have h3 := log_two_interval.2
    norm_num at h2 h3 ⊢
    linarith

/-- C60 (finding F56). The same for `log(10)` of `decwide_t<52>`: the error is more than 12 times `epsilon()` = 10^-51. -/
theorem log_agm_inaccurate : ∃ pi ln2 r, pi = (calcPi exU52 (estSqrt exU52 exDouble (sqK 53)) (estInv exU52 exDouble) exDouble.digits10).1 ∧
    calcLnTwo exU52 (estSqrt exU52 exDouble (sqK 53)) (estInv exU52 exDouble) exDouble.digits10 exFloat pi = some (ln2, some 10) ∧
    logAgm exU52 (estSqrt exU52 exDouble (sqK 53)) (estInv exU52 exDouble) exDouble.digits10 exFloat exL10 exL2 pi ln2 2
      (ofUnsigned exU52 32 10) = some r ∧
    r.val exU52 - Real.log 10 < -12 / 10 ^ 51 := by
  refine ⟨exU52pi, exU52ln, exU52log, ?_, ?_, ?_, ?_⟩
  · rw [← exDoubleK_eq, show exDoubleK.digits10 = 15 from rfl, exU52_pi]
  · rw [← exDoubleK_eq, ← exFloatK_eq, show exDoubleK.digits10 = 15 from rfl, exU52_ln]
  · rw [logAgm, if_neg (by decide +kernel), if_pos (by decide +kernel), ← exDoubleK_eq, ← exFloatK_eq,
      show exDoubleK.digits10 = 15 from rfl, exU52_log]
    rfl
  · have h : exU52log.val exU52 < (230258509299404568401799145468436420760110148862876033889 / 10 ^ 56 : ℚ) := by decide +kernel
    have h2 : (exU52log.val exU52 : ℝ) < ((230258509299404568401799145468436420760110148862876033889 / 10 ^ 56 : ℚ) : ℝ) := by exact_mod_cast h
    have h3 := log_ten_interval.1
    norm_num at h2 h3 ⊢
    linarith

theorem logAgmAbove_eq {c : Cfg} {estS : DW → DW × DW} {est : DW → DW} {fdig : ℕ} {F32 : Flt} {l10 l2 : ℚ} {pi ln2 x b0 : DW}
    (hb : ldexp c est fdig (precision c (one c) (x.prec * c.ed : ℕ)) (2 - logM c F32 l10 l2 x) = some b0) :
    logAgmAbove c estS est fdig F32 l10 l2 pi ln2 x =
      some (subAssign c (mulAssign c (calcInv c est fdig (agmLoop c estS est fdig (logGoal c x) 128 (one c) (divAssign c est fdig b0 x)).1) pi)
          (mulSLL c ln2 (logM c F32 l10 l2 x)),
        (agmLoop c estS est fdig (logGoal c x) 128 (one c) (divAssign c est fdig b0 x)).2) := by
  unfold logAgmAbove
  generalize 128 = f
  simp only [hb, Option.map_some]

end WD
