import Verif.Model.Agm
import Verif.Props.SqrtK
import Verif.Props.Const
/-
  C59, C60: witnesses, evaluated by the kernel, against the accuracy of `ln_two` and `log` above 51 digits.
-/
namespace WD
open DW

/-- The type `float`, evaluable in the kernel. -/
def exFloatK : Flt := ⟨24, 6, 9, roundFast 24, by rw [roundFast_eq]; exact roundBits_rep 24 (by norm_num),
  by rw [roundFast_eq]; exact roundBits_nearest 24 (by norm_num)⟩

theorem exFloatK_eq : exFloatK = exFloat := by
  unfold exFloatK exFloat
  congr 1
  exact roundFast_eq 24

/-- k rounds of the AGM loop that are not left by `break`. -/
def agmRun (c : Cfg) (estS : DW → DW × DW) (est : DW → DW) (fdig : ℕ) (goal : ℤ) : ℕ → DW → DW → Option (DW × DW)
  | 0, a, b => some (a, b)
  | k + 1, a, b =>
    if agmDigits (subAssign c a b) > goal then none
    else agmRun c estS est fdig goal k (divULL c est fdig (addAssign c a b) 2) (calcSqrt c estS fdig (mulAssign c b a))

section
variable {c : Cfg} {estS : DW → DW × DW} {est : DW → DW} {fdig : ℕ} {goal : ℤ}

theorem agmRun_add : ∀ {k j : ℕ} {a b a' b' : DW} {r : Option (DW × DW)}, agmRun c estS est fdig goal k a b = some (a', b') →
    agmRun c estS est fdig goal j a' b' = r → agmRun c estS est fdig goal (k + j) a b = r := by
  intro k
  induction k with
  | zero =>
    intro j a b a' b' r h h2
    simp only [agmRun, Option.some.injEq, Prod.mk.injEq] at h
    rw [h.1, h.2, Nat.zero_add]; exact h2
  | succ k ih =>
    intro j a b a' b' r h h2
    rw [agmRun] at h
    rw [Nat.add_right_comm, agmRun]
    split at h
    · exact absurd h (by simp)
    · next hb => rw [if_neg hb]; exact ih h h2

theorem agmLoop_run : ∀ (k f : ℕ) (a b a' b' : DW), agmRun c estS est fdig goal k a b = some (a', b') →
    agmLoop c estS est fdig goal (f + k) a b =
      ((agmLoop c estS est fdig goal f a' b').1, (agmLoop c estS est fdig goal f a' b').2.map (· + k)) := by
  intro k
  induction k with
  | zero =>
    intro f a b a' b' h
    simp only [agmRun, Option.some.injEq, Prod.mk.injEq] at h
    rw [h.1, h.2, Nat.add_zero]
    simp
  | succ k ih =>
    intro f a b a' b' h
    rw [agmRun] at h
    split at h
    · exact absurd h (by simp)
    · next hb =>
      rw [← Nat.add_assoc, agmLoop]
      simp only [if_neg hb]
      rw [ih f _ _ _ _ h]
      simp [Option.map_map, Function.comp_def, Nat.add_assoc]

/-- Once a round reproduces its state without `break`, so do all the others. -/
theorem agmLoop_fix {a b : DW} (h : agmRun c estS est fdig goal 1 a b = some (a, b)) : ∀ f,
    agmLoop c estS est fdig goal f a b = (a, none) := by
  intro f
  induction f with
  | zero => rfl
  | succ f ih => rw [agmLoop_run 1 f a b a b h, ih]; rfl

end

/-- 56 digits, 8-bit limbs. -/
def exU56 : Cfg := { L := .u8, digits10 := 56, maxExp := 2 ^ 59 }
def exU56fix : DW := { data := [2, 43, 67, 52, 76, 44, 23, 22, 24, 78, 29, 44, 53, 19, 66, 21, 86, 38, 76, 43, 64, 84, 66, 0, 66, 55, 67, 65, 59, 32, 36], exp := -2, neg := false, prec := 31 }
def exU56pi : DW := { data := [3, 14, 15, 92, 65, 35, 89, 79, 32, 38, 46, 26, 43, 38, 32, 79, 50, 28, 84, 19, 71, 69, 39, 93, 75, 10, 58, 20, 98, 75, 89], exp := 0, neg := false, prec := 31 }
def exU56b : DW := (ldexp exU56 (estInv exU56 exDoubleK) 15 (one exU56) (2 - lnTwoM exU56 exFloatK)).getD (zero exU56)
def exU56ln : DW := { data := [1, 38, 62, 94, 36, 11, 19, 89, 6, 18, 83, 44, 64, 24, 29, 16, 35, 31, 36, 15, 10, 0, 26, 87, 20, 51, 5, 8, 30, 30, 90], exp := 0, neg := false, prec := 31 }

def exU56r1a : DW := { data := [6, 25, 79, 17, 78, 65, 51, 78, 80, 57, 63, 73, 86, 17, 77, 95, 26, 0, 71, 41, 94, 83, 32, 18, 3, 1, 77, 27, 40, 42, 17], exp := -2, neg := false, prec := 31 }
def exU56r1b : DW := { data := [44, 48, 39, 39, 96, 35, 59, 24, 31, 28, 0, 10, 81, 70, 73, 3, 19, 35, 53, 5, 51, 1, 41, 91, 77, 20, 82, 92, 79, 22, 11], exp := -4, neg := false, prec := 31 }
def exU56r2a : DW := { data := [2, 43, 67, 52, 79, 44, 68, 27, 44, 18, 71, 47, 42, 20, 78, 18, 38, 88, 67, 55, 58, 9, 63, 34, 20, 98, 13, 65, 47, 93, 75], exp := -2, neg := false, prec := 31 }
def exU56r2b : DW := { data := [2, 43, 67, 52, 73, 43, 78, 17, 7, 23, 10, 12, 32, 29, 77, 42, 78, 35, 8, 79, 77, 36, 5, 61, 44, 90, 29, 15, 53, 8, 79], exp := -2, neg := false, prec := 31 }
theorem exU56_run1 : agmRun exU56 (estSqrt exU56 exDoubleK (sqK 53)) (estInv exU56 exDoubleK) 15 (agmGoal exU56) 4 (ofUnsigned exU56 32 1) exU56b = some (exU56r1a, exU56r1b) := by decide +kernel
theorem exU56_run2 : agmRun exU56 (estSqrt exU56 exDoubleK (sqK 53)) (estInv exU56 exDoubleK) 15 (agmGoal exU56) 4 exU56r1a exU56r1b = some (exU56r2a, exU56r2b) := by decide +kernel
theorem exU56_run3 : agmRun exU56 (estSqrt exU56 exDoubleK (sqK 53)) (estInv exU56 exDoubleK) 15 (agmGoal exU56) 3 exU56r2a exU56r2b = some (exU56fix, exU56fix) := by decide +kernel
theorem exU56_run : agmRun exU56 (estSqrt exU56 exDoubleK (sqK 53)) (estInv exU56 exDoubleK) 15 (agmGoal exU56) 11 (ofUnsigned exU56 32 1) exU56b = some (exU56fix, exU56fix) :=
  (agmRun_add exU56_run1 (agmRun_add exU56_run2 exU56_run3))
theorem exU56_fix : agmRun exU56 (estSqrt exU56 exDoubleK (sqK 53)) (estInv exU56 exDoubleK) 15 (agmGoal exU56) 1
    exU56fix exU56fix = some (exU56fix, exU56fix) := by decide +kernel
theorem exU56_pi : (calcPi exU56 (estSqrt exU56 exDoubleK (sqK 53)) (estInv exU56 exDoubleK) 15).1 = exU56pi := by decide +kernel
theorem exU56_end : divSLL exU56 (estInv exU56 exDoubleK) 15 (mulAssign exU56 exU56pi (calcInv exU56 (estInv exU56 exDoubleK) 15 exU56fix))
    (lnTwoM exU56 exFloatK) = exU56ln := by decide +kernel

theorem exU56_b : ldexp exU56 (estInv exU56 exDoubleK) 15 (one exU56) (2 - lnTwoM exU56 exFloatK) = some exU56b := by decide +kernel

theorem calcLnTwo_eq {c : Cfg} {estS : DW → DW × DW} {est : DW → DW} {fdig : ℕ} {F32 : Flt} {pi b : DW}
    (hb : ldexp c est fdig (one c) (2 - lnTwoM c F32) = some b) : calcLnTwo c estS est fdig F32 pi =
      some (divSLL c est fdig (mulAssign c pi (calcInv c est fdig (agmLoop c estS est fdig (agmGoal c) 128 (ofUnsigned c 32 1) b).1)) (lnTwoM c F32),
        (agmLoop c estS est fdig (agmGoal c) 128 (ofUnsigned c 32 1) b).2) := by
  unfold calcLnTwo
  generalize 128 = f
  simp only [hb, Option.map_some]

/-- C59 (finding F55). `ln_two` of `decwide_t<56, uint8_t, ..., double>`: `ak` and `bk` become equal in a round whose difference
    did not yet meet the goal; the number of digits of the difference zero is taken as 0, so that the loop is never left by
    `break`, `ak` is halved once too often, and the result is 1.386..., twice the logarithm. -/
theorem ln_two_wrong : ∃ r, calcLnTwo exU56 (estSqrt exU56 exDouble (sqK 53)) (estInv exU56 exDouble) exDouble.digits10 exFloat
      (calcPi exU56 (estSqrt exU56 exDouble (sqK 53)) (estInv exU56 exDouble) exDouble.digits10).1 = some (r, none) ∧
    0.69 < r.val exU56 - Real.log 2 := by
  refine ⟨exU56ln, ?_, ?_⟩
  · rw [← exDoubleK_eq, ← exFloatK_eq, show exDoubleK.digits10 = 15 from rfl, exU56_pi, calcLnTwo_eq exU56_b,
      show (128 : ℕ) = 117 + 11 from rfl, agmLoop_run 11 117 _ _ _ _ exU56_run, agmLoop_fix exU56_fix, exU56_end]
    rfl
  · have h : (1.386 : ℚ) < exU56ln.val exU56 := by decide +kernel
    have h2 : ((1.386 : ℚ) : ℝ) < (exU56ln.val exU56 : ℝ) := by exact_mod_cast h
    have h3 := log_two_interval.2
    norm_num at h2 h3 ⊢
    linarith

end WD
