import Verif.Model.Alias
import Verif.Props.Mul

namespace WD
open DW

@[simp] theorem dupd_same (st : Store) (a : Nat) (x : DW) : upd st a x a = x := by simp [upd]
theorem dupd_ne (st : Store) {a i : Nat} (h : i ≠ a) (x : DW) : upd st a x i = st i := by simp [upd, h]
@[simp] theorem dupd_upd (st : Store) (a : Nat) (x y : DW) : upd (upd st a x) a y = upd st a y := by
  funext i; unfold upd; split <;> rfl
@[simp] theorem dupd_self (st : Store) (a : Nat) : upd st a (st a) = st := by
  funext i; unfold upd; split
  · next h => rw [h]
  · rfl

theorem dupd_dw (st : Store) (a : Nat) : upd st a (st a) = st := dupd_self st a

theorem carryAt_eq (c : Cfg) (st : Store) (a p cy : Nat) (x : DW) :
    carryAt c (upd st a x) a p cy =
      upd st a (if cy ≠ 0 then { x with data := carryIn c.N p x.data cy, exp := x.exp + c.ed } else x) := by
  unfold carryAt
  split <;> simp

theorem addAt_eq (c : Cfg) (st : Store) {a b : Nat} (h : b ≠ a) :
    addAt c st a b = upd st a (addAssign c (st a) (st b)) := by
  unfold addAt addAssign
  by_cases h0 : (st a).isZero = true
  · rw [if_pos h0, if_pos h0]; rfl
  rw [if_neg h0, if_neg h0]
  dsimp only
  generalize min (st a).prec (st b).prec = p
  generalize (if (0 : ℤ) ≤ (st a).exp - (st b).exp then ((((st a).exp - (st b).exp).natAbs / c.ed : Nat) : ℤ)
    else -((((st a).exp - (st b).exp).natAbs / c.ed : Nat) : ℤ)) = ofs
  split
  · simp
  · split
    · rfl
    · by_cases hs : (st a).neg = (st b).neg
      · rw [if_pos hs, if_pos hs]
        unfold addSame
        by_cases ho : 0 ≤ ofs
        · simp only [if_pos ho]
          rw [carryAt_eq]
        · simp only [if_neg ho, dupd_same, dupd_upd, dupd_ne _ h]
          rw [carryAt_eq]
      · rw [if_neg hs, if_neg hs]
        unfold addOpp
        dsimp only
        split
        · simp
        · split <;> simp [dupd_ne _ h]

theorem subAt_eq (c : Cfg) (st : Store) {a b : Nat} (h : b ≠ a) :
    subAt c st a b = upd st a (subAssign c (st a) (st b)) := by
  unfold subAt negAt subAssign
  rw [addAt_eq c _ h]
  simp [dupd_ne _ h]

theorem mulAt_eq (c : Cfg) (st : Store) {a b : Nat} (h : b ≠ a) :
    mulAt c st a b = upd st a (mulAssign c (st a) (st b)) := by
  unfold mulAt mulAssign
  split
  · dsimp only
    simp only [dupd_same, dupd_upd, dupd_ne _ h]
    split
    · simp [assignAt, dupd_ne _ h]
    · split
      · simp
      · split
        · simp
        · split <;> simp
  · dsimp only
    simp only [dupd_same, dupd_ne _ h]
    split
    · simp [assignAt, dupd_ne _ h]
    · split
      · simp
      · split
        · simp
        · split <;> simp

theorem divAt_eq (c : Cfg) (est : DW → DW) (fdig : Nat) (st : Store) {a b t : Nat} (_h : b ≠ a) (ht : t ≠ a) :
    divAt c est fdig st a b t = upd st a (divAssign c est fdig (st a) (st b)) := by
  unfold divAt divAssign
  split
  · dsimp only
    split
    · simp [negAt]
    · rfl
  · dsimp only
    rw [mulAt_eq c _ ht, dupd_ne _ (Ne.symm ht), dupd_same]
    funext i
    unfold upd
    by_cases h1 : i = t
    · subst h1; simp [ht]
    · simp [h1]

/-- x += x on the same object. -/
theorem addAt_self (c : Cfg) (st : Store) (a : Nat) : addAt c st a a = upd st a (addAssign c (st a) (st a)) := by
  unfold addAt addAssign
  by_cases h0 : (st a).isZero = true
  · rw [if_pos h0, if_pos h0]; rfl
  rw [if_neg h0, if_neg h0]
  dsimp only
  generalize min (st a).prec (st a).prec = p
  split
  · simp
  · split
    · rfl
    · rw [if_pos rfl, if_pos rfl]
      have ho : (0 : ℤ) ≤ (if (0 : ℤ) ≤ (st a).exp - (st a).exp then ((((st a).exp - (st a).exp).natAbs / c.ed : Nat) : ℤ)
          else -((((st a).exp - (st a).exp).natAbs / c.ed : Nat) : ℤ)) := by simp
      generalize (if (0 : ℤ) ≤ (st a).exp - (st a).exp then ((((st a).exp - (st a).exp).natAbs / c.ed : Nat) : ℤ)
          else -((((st a).exp - (st a).exp).natAbs / c.ed : Nat) : ℤ)) = ofs at ho ⊢
      unfold addSame
      simp only [if_pos ho]
      rw [carryAt_eq]

/-- x -= x on the same object: the result of -((-x) + (-x)). -/
theorem subAt_self (c : Cfg) (st : Store) (a : Nat) :
    subAt c st a a = upd st a (addAssign c (st a).negate (st a).negate).negate := by
  unfold subAt negAt
  rw [addAt_self]
  simp

theorem mulDispatch_negR (c : Cfg) (p : Nat) (u v : DW) (e : ℤ) (n : Bool) :
    mulDispatch c p u { v with exp := e, neg := n } = mulDispatch c p u v := rfl

theorem zero_isZero (c : Cfg) : (zero c).isZero = true := (zero_WF c).toWF.isZero_iff.mpr (zero_val c)

/-- x *= x on the same non-zero object. -/
theorem mulAt_self (c : Cfg) (st : Store) (a : Nat) (hz : (st a).isZero = false) :
    mulAt c st a a = upd st a (mulAssign c (st a) (st a)) := by
  unfold mulAt mulAssign
  simp only [hz, Bool.false_eq_true, or_self, if_false]
  simp only [dupd_same, dupd_upd, isOneSN_neg]
  split
  · simp [assignAt]
  · split
    · simp
    · split
      · simp
      · rw [dupd_upd, dupd_same]
        congr 1

/-- x *= x on the same object holding zero leaves a zero. -/
theorem mulAt_self_zero (c : Cfg) (st : Store) (a : Nat) (hok : MulOk c c.N) (hE : 0 < c.maxExp) (hz : (st a).isZero = true) :
    ((mulAt c st a a) a).val c = 0 ∧ Full c ((mulAt c st a a) a) := by
  have hz' : (zero c).isZero = true := zero_isZero c
  have e : (mulAt c st a a) a = mulAssign c (zero c) (zero c) := by
    unfold mulAt mulAssign
    simp only [hz, or_self, if_true, hz', dupd_same, dupd_upd, isOneSN_neg]
    split
    · simp [assignAt]
    · split
      · simp
      · split
        · simp
        · simp only [dupd_same]; rfl
  rw [e]
  exact mulAssign_zero (zero_WF c) (zero_WF c) (Or.inl hz') hok (by simpa [zero, fromLst] using hE) (by simpa [zero, fromLst] using hE)

theorem compareRanges_self (l : List Nat) : compareRanges l l = 0 := by
  induction l with
  | nil => rfl
  | cons x xs ih => unfold compareRanges; simp [ih]

theorem divAt_self (c : Cfg) (est : DW → DW) (fdig : Nat) (st : Store) (a t : Nat) :
    divAt c est fdig st a a t = upd st a (one c) := by
  unfold divAt
  simp [compareRanges_self]

theorem divAssign_self (c : Cfg) (est : DW → DW) (fdig : Nat) (x : DW) : divAssign c est fdig x x = one c := by
  unfold divAssign
  simp [compareRanges_self]

end WD
