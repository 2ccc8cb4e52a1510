import Verif.Proofs.DynArray
import Mathlib.Data.List.Lex
import Mathlib.Tactic.Common
/-
  C36: dynamic_array behaves like a sequence.
-/
namespace WD
open Util Util.DS

/-- Specification: programs on named mathematical sequences. Dead names are `none`; an operation on a dead name, a
    construction over a live name or an index out of range is undefined (`none`). Copy assignment keeps the length of
    the target and overwrites the common prefix – this is what the code does; it is sequence assignment when the
    lengths agree. -/
def seqStep {V : Type} (a : ℕ → Option (List V)) : DOp V → Option (ℕ → Option (List V))
  | .construct x n v => if (a x).isSome then none else some (upd a x (some (List.replicate n v)))
  | .constructRange x l => if (a x).isSome then none else some (upd a x (some l))
  | .copyConstruct x y => if (a x).isSome then none else (a y).map fun l => upd a x (some l)
  | .moveConstruct x y => if (a x).isSome then none else (a y).map fun l => upd (upd a y (some [])) x (some l)
  | .destroy x => (a x).map fun _ => upd a x none
  | .copyAssign x y => (a x).bind fun lx => (a y).map fun ly =>
      upd a x (some (ly.take lx.length ++ lx.drop ly.length))
  | .moveAssign x y => (a x).bind fun lx => (a y).map fun ly => upd (upd a x (some ly)) y (some lx)
  | .swap x y => (a x).bind fun lx => (a y).map fun ly => upd (upd a x (some ly)) y (some lx)
  | .fill x v => (a x).map fun l => upd a x (some (List.replicate l.length v))
  | .put x i v => (a x).bind fun l => if i < l.length then some (upd a x (some (l.set i v))) else none

def seqRun {V : Type} : (ℕ → Option (List V)) → List (DOp V) → Option (ℕ → Option (List V))
  | a, [] => some a
  | a, op :: ops => (seqStep a op).bind fun a' => seqRun a' ops

theorem upd_self {α : Type} {f : ℕ → α} {k : ℕ} {a : α} (h : f k = a) : upd f k a = f := by
  funext i; unfold upd; split
  · rename_i h'; rw [h', h]
  · rfl

/-- One step: the heap model and the sequence model succeed together and agree. -/
theorem step_refines {V : Type} (s : DS V) (hs : Inv s) (op : DOp V) :
    (∀ s', step s op = some s' → Inv s' ∧ seqStep s.elems op = some s'.elems) ∧
    (step s op = none → seqStep s.elems op = none) := by
  have hsome := hs.elems_isSome
  cases op with
  | construct x n v =>
    simp only [step, seqStep, hsome]
    cases hx : s.objs x with
    | some o => simp
    | none =>
      simp only [Option.isSome_none, Bool.false_eq_true, if_false, Option.some.injEq, reduceCtorEq, false_implies, and_true]
      rintro s' rfl
      obtain ⟨h1, h2, h3⟩ := newObj_spec hs hx (List.replicate n v)
      refine ⟨h1, funext fun z => ?_⟩
      by_cases hz : z = x
      · subst hz; rw [upd_same, h2]
      · rw [upd_ne _ _ hz, h3 z hz]
  | constructRange x l =>
    simp only [step, seqStep, hsome]
    cases hx : s.objs x with
    | some o => simp
    | none =>
      simp only [Option.isSome_none, Bool.false_eq_true, if_false, Option.some.injEq, reduceCtorEq, false_implies, and_true]
      rintro s' rfl
      obtain ⟨h1, h2, h3⟩ := newObj_spec hs hx l
      refine ⟨h1, funext fun z => ?_⟩
      by_cases hz : z = x
      · subst hz; rw [upd_same, h2]
      · rw [upd_ne _ _ hz, h3 z hz]
  | copyConstruct x y =>
    simp only [step, seqStep, hsome]
    cases hx : s.objs x with
    | some o => simp
    | none =>
      simp only [Option.isSome_none, Bool.false_eq_true, if_false]
      cases hy : s.elems y with
      | none => simp
      | some l =>
        simp only [Option.some.injEq, Option.map_some, reduceCtorEq, false_implies, and_true]
        rintro s' rfl
        obtain ⟨h1, h2, h3⟩ := newObj_spec hs hx l
        refine ⟨h1, funext fun z => ?_⟩
        by_cases hz : z = x
        · subst hz; rw [upd_same, h2]
        · rw [upd_ne _ _ hz, h3 z hz]
  | moveConstruct x y =>
    simp only [step, seqStep, hsome]
    cases hx : s.objs x with
    | some o => simp
    | none =>
      simp only [Option.isSome_none, Bool.false_eq_true, if_false]
      cases hy : s.objs y with
      | none => simp [elems_none hy]
      | some o =>
        obtain ⟨l, hl, -⟩ := hs.elems hy
        simp only [Option.some.injEq, hl, Option.map_some, reduceCtorEq, false_implies, and_true]
        rintro s' rfl
        obtain ⟨h1, h2, h3, h4⟩ := move_spec hs hx hy
        refine ⟨h1, funext fun z => ?_⟩
        by_cases hz : z = x
        · subst hz; rw [upd_same, h2, hl]
        · rw [upd_ne _ _ hz]
          by_cases hzy : z = y
          · subst hzy; rw [upd_same, h3]
          · rw [upd_ne _ _ hzy, h4 z hz hzy]
  | destroy x =>
    simp only [step, seqStep]
    cases hx : s.objs x with
    | none => simp [elems_none hx]
    | some o =>
      obtain ⟨l, hl, -⟩ := hs.elems hx
      obtain ⟨t, h1, h2, h3, h4⟩ := release_spec hs hx
      simp only [h1, hl, Option.map_some, Option.some.injEq, reduceCtorEq, false_implies, and_true]
      rintro s' rfl
      refine ⟨h2, funext fun z => ?_⟩
      by_cases hz : z = x
      · subst hz; rw [upd_same, h3]
      · rw [upd_ne _ _ hz, h4 z hz]
  | copyAssign x y =>
    simp only [step, seqStep]
    cases hx : s.objs x with
    | none => simp [elems_none hx]
    | some o =>
      obtain ⟨lx, hlx, hlen, -⟩ := hs.elems hx
      cases hy : s.elems y with
      | none => simp [hlx]
      | some ly =>
        simp only [hlx, Option.bind_some, Option.map_some]
        have e : ly.take (min lx.length ly.length) ++ lx.drop (min lx.length ly.length) = ly.take lx.length ++ lx.drop ly.length := by
          rcases Nat.le_total lx.length ly.length with h | h
          · rw [min_eq_left h, List.drop_of_length_le le_rfl, List.drop_of_length_le h]
          · rw [min_eq_right h, List.take_of_length_le le_rfl, List.take_of_length_le h]
        by_cases hxy : x = y
        · subst hxy
          rw [hlx] at hy
          obtain rfl := Option.some.inj hy
          simp only [if_true, Option.some.injEq, reduceCtorEq, false_implies, and_true]
          rintro s' rfl
          refine ⟨hs, ?_⟩
          rw [List.take_of_length_le le_rfl, List.drop_of_length_le le_rfl, List.append_nil]
          exact upd_self hlx
        · simp only [if_neg hxy, Option.some.injEq, reduceCtorEq, false_implies, and_true]
          rintro s' rfl
          obtain ⟨h1, h2, h3⟩ := write_spec hs hx (l := ly.take (min lx.length ly.length) ++ lx.drop (min lx.length ly.length))
            (by simp; omega)
          refine ⟨h1, funext fun z => ?_⟩
          by_cases hz : z = x
          · subst hz; rw [upd_same, h2, e]
          · rw [upd_ne _ _ hz, h3 z hz]
  | moveAssign x y =>
    simp only [step, seqStep]
    cases hx : s.objs x with
    | none => simp [elems_none hx]
    | some ox =>
      obtain ⟨lx, hlx, -⟩ := hs.elems hx
      cases hy : s.objs y with
      | none => simp [elems_none hy]
      | some oy =>
        obtain ⟨ly, hly, -⟩ := hs.elems hy
        simp only [hlx, hly, Option.bind_some, Option.map_some, Option.some.injEq, reduceCtorEq, false_implies, and_true]
        rintro s' rfl
        obtain ⟨h1, h2, h3, h4⟩ := exch_spec hs hx hy
        refine ⟨h1, funext fun z => ?_⟩
        by_cases hzy : z = y
        · subst hzy; rw [upd_same, h3, hlx]
        · rw [upd_ne _ _ hzy]
          by_cases hz : z = x
          · subst hz; rw [upd_same, h2, hly]
          · rw [upd_ne _ _ hz, h4 z hz hzy]
  | swap x y =>
    simp only [step, seqStep]
    cases hx : s.objs x with
    | none => simp [elems_none hx]
    | some ox =>
      obtain ⟨lx, hlx, -⟩ := hs.elems hx
      cases hy : s.objs y with
      | none => simp [elems_none hy]
      | some oy =>
        obtain ⟨ly, hly, -⟩ := hs.elems hy
        simp only [hlx, hly, Option.bind_some, Option.map_some]
        by_cases hxy : x = y
        · subst hxy
          simp only [if_true, Option.some.injEq, reduceCtorEq, false_implies, and_true]
          rintro s' rfl
          refine ⟨hs, ?_⟩
          rw [hlx] at hly; obtain rfl := Option.some.inj hly
          rw [upd_self hlx, upd_self hlx]
        · simp only [if_neg hxy, Option.some.injEq, reduceCtorEq, false_implies, and_true]
          rintro s' rfl
          obtain ⟨h1, h2, h3, h4⟩ := exch_spec hs hx hy
          refine ⟨h1, funext fun z => ?_⟩
          by_cases hzy : z = y
          · subst hzy; rw [upd_same, h3, hlx]
          · rw [upd_ne _ _ hzy]
            by_cases hz : z = x
            · subst hz; rw [upd_same, h2, hly]
            · rw [upd_ne _ _ hz, h4 z hz hzy]
  | fill x v =>
    simp only [step, seqStep]
    cases hx : s.objs x with
    | none => simp [elems_none hx]
    | some o =>
      obtain ⟨l, hl, hlen, -⟩ := hs.elems hx
      simp only [hl, Option.map_some, Option.some.injEq, reduceCtorEq, false_implies, and_true]
      rintro s' rfl
      obtain ⟨h1, h2, h3⟩ := write_spec hs hx (l := List.replicate l.length v) (by simp [hlen])
      refine ⟨h1, funext fun z => ?_⟩
      by_cases hz : z = x
      · subst hz; rw [upd_same, h2]
      · rw [upd_ne _ _ hz, h3 z hz]
  | put x i v =>
    simp only [step, seqStep]
    cases hx : s.objs x with
    | none => simp [elems_none hx]
    | some o =>
      obtain ⟨l, hl, hlen, -⟩ := hs.elems hx
      simp only [hl, Option.bind_some]
      by_cases hi : i < l.length
      · simp only [if_pos hi, Option.some.injEq, reduceCtorEq, false_implies, and_true]
        rintro s' rfl
        obtain ⟨h1, h2, h3⟩ := write_spec hs hx (l := l.set i v) (by simp [hlen])
        refine ⟨h1, funext fun z => ?_⟩
        by_cases hz : z = x
        · subst hz; rw [upd_same, h2]
        · rw [upd_ne _ _ hz, h3 z hz]
      · simp [if_neg hi]

theorem inv_init {V : Type} : Inv (DS.init : DS V) :=
  ⟨fun _ _ h => by simp [DS.init] at h, fun _ _ _ _ _ h => by simp [DS.init] at h, fun _ _ h => by simp [DS.init] at h,
    fun _ _ h => by simp [DS.init] at h⟩

theorem run_refines {V : Type} (ops : List (DOp V)) : ∀ s : DS V, Inv s →
    (∀ s', run s ops = some s' → Inv s' ∧ seqRun s.elems ops = some s'.elems) ∧ (run s ops = none → seqRun s.elems ops = none) := by
  induction ops with
  | nil => intro s hs; simp [run, seqRun, hs]
  | cons op ops ih =>
    intro s hs
    obtain ⟨h1, h2⟩ := step_refines s hs op
    simp only [run, seqRun]
    cases h : step s op with
    | none => simp [h2 h]
    | some t =>
      obtain ⟨i1, i2⟩ := h1 t h
      rw [i2]
      simpa using ih t i1

/-- C36. For every program over named arrays (construction, copy, move, assignment, swap of lvalues, fill, element
    writes, destruction): the run is undefined exactly when the program misuses names or indices; otherwise every object
    holds exactly the sequence the specification predicts, every allocated block is owned by exactly one live object
    (no double ownership, no leak). -/
theorem dynamic_array_refines {V : Type} (ops : List (DOp V)) :
    (run DS.init ops = none ↔ seqRun (fun _ => none) ops = none) ∧
    (∀ s, run DS.init ops = some s →
      seqRun (fun _ => none) ops = some s.elems ∧
      (∀ b, (s.heap b).isSome → ∃! x, ∃ o, s.objs x = some o ∧ o.ptr = some b) ∧
      (∀ x o b, s.objs x = some o → o.ptr = some b → (s.heap b).isSome)) := by
  have e0 : (DS.init : DS V).elems = fun _ => none := rfl
  obtain ⟨h1, h2⟩ := run_refines ops DS.init inv_init
  rw [e0] at h1 h2
  refine ⟨⟨h2, fun h => ?_⟩, fun s hs => ?_⟩
  · cases hr : run DS.init ops with
    | none => rfl
    | some s => rw [(h1 s hr).2] at h; simp at h
  · obtain ⟨i, e⟩ := h1 s hs
    refine ⟨e, fun b hb => ?_, fun x o b hx hb => ?_⟩
    · obtain ⟨l, hl⟩ := Option.isSome_iff_exists.mp hb
      obtain ⟨x, o, hx, ho⟩ := i.owned b l hl
      exact ⟨x, ⟨o, hx, ho⟩, fun y ⟨o', hy, ho'⟩ => i.inj y x o' o b hy hx ho' ho⟩
    · rcases i.ok x o hx with ⟨h, -⟩ | ⟨b', l, h, h', -⟩
      · rw [h] at hb; simp at hb
      · rw [h] at hb; obtain rfl := Option.some.inj hb; rw [h']; rfl

example : ((run DS.init [DOp.construct 0 2 (7 : ℕ), .constructRange 1 [1, 2, 3], .swap 0 1, .copyConstruct 2 0, .moveConstruct 3 1,
      .put 2 1 9, .destroy 0, .moveAssign 2 3]).map fun s => (s.elems 0, s.elems 1, s.elems 2, s.elems 3)) =
    some (none, some [], some [7, 7], some [1, 9, 3]) := by decide

/-- C36, assignment between arrays of equal length is sequence assignment. -/
theorem dynamic_array_assign_partial {V : Type} (s s' : DS V) (hs : Inv s) (x y : ℕ) (lx ly : List V) (hx : s.elems x = some lx)
    (hy : s.elems y = some ly) (hl : lx.length = ly.length) (h : step s (.copyAssign x y) = some s') :
    s'.elems x = some ly ∧ ∀ z, z ≠ x → s'.elems z = s.elems z := by
  obtain ⟨-, e⟩ := (step_refines s hs (.copyAssign x y)).1 s' h
  simp only [seqStep, hx, hy, Option.bind_some, Option.map_some, Option.some.injEq] at e
  rw [← e]
  refine ⟨?_, fun z hz => upd_ne _ _ hz⟩
  rw [upd_same, hl, List.take_of_length_le le_rfl, List.drop_of_length_le (by omega), List.append_nil]

/-- C36 is false for assignment between arrays of different length (the target keeps its length), for the ordering of a
    proper prefix (`{1} < {1,2}` is false) and for `swap` with an rvalue (both objects own the block afterwards, so
    destroying both frees it twice and the old block leaks). -/
theorem dynamic_array_limits :
    ((run DS.init [DOp.constructRange 0 [1], .constructRange 1 [2, 3], .copyAssign 0 1]).map fun s => s.elems 0) = some (some [2]) ∧
    daLt (fun a b : ℕ => decide (a < b)) [1] [1, 2] = false ∧ daLt (fun a b : ℕ => decide (a < b)) [1, 2] [1] = false ∧
    (((run DS.init [DOp.constructRange 0 [1], .constructRange 1 [2]]).bind fun s => swapRvalue s 0 1).map
      fun s => (s.objs 0 == s.objs 1, (run s [DOp.destroy 1, .destroy 0]).isNone)) = some (true, true) := by decide

/-- C36, comparison: `==` is equality of sequences; on non-empty arrays of equal length `<` is the lexicographic order;
    an empty array is below every non-empty one. -/
theorem dynamic_array_compare (a b : List ℕ) :
    (daEq a b = true ↔ a = b) ∧
    (a.length = b.length → (daLt (fun m n => decide (m < n)) a b = true ↔ a < b)) ∧
    (a = [] → (daLt (fun m n => decide (m < n)) a b = true ↔ a < b)) := by
  have hlex : ∀ a b : List ℕ, (lexCompare (fun m n => decide (m < n)) a b = true ↔ a < b) := by
    intro a
    induction a with
    | nil => intro b; cases b <;> simp [lexCompare]
    | cons m a ih =>
      intro b
      cases b with
      | nil => simp [lexCompare]
      | cons n b =>
        simp only [lexCompare, decide_eq_true_eq, List.cons_lt_cons_iff]
        by_cases h1 : m < n
        · simp [h1]
        · by_cases h2 : n < m
          · simp [h1, h2]; intro h; omega
          · simp [h1, h2, ih]; intro _; omega
  refine ⟨?_, fun hl => ?_, fun h => ?_⟩
  · simp only [daEq, Bool.and_eq_true, Bool.or_eq_true, beq_iff_eq]
    constructor
    · rintro ⟨h1, h2 | h2⟩
      · rw [h2] at h1
        rw [List.length_eq_zero_iff.mp h2, List.length_eq_zero_iff.mp h1.symm]
      · exact h2
    · rintro rfl; exact ⟨rfl, Or.inr rfl⟩
  · unfold daLt
    by_cases h0 : a.length = 0
    · rw [if_pos h0, List.length_eq_zero_iff.mp h0, List.length_eq_zero_iff.mp (hl ▸ h0 : b.length = 0)]; simp
    · rw [if_neg h0, hl, min_self, ← hl, List.take_of_length_le le_rfl, hl, List.take_of_length_le le_rfl]
      exact hlex a b
  · subst h
    cases b <;> simp [daLt]

example : daLt (fun m n : ℕ => decide (m < n)) [1, 5, 2] [1, 6, 0] = true := by decide

end WD
