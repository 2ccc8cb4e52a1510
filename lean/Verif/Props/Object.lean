import Verif.Spec.Object
import Verif.Props.DynArray
/-
  C63: objects hold values through copies, moves, assignments, swaps and destruction.
-/
namespace WD
open Util Util.DS

/-- What the array `e` and the other members `h` of an object have to do with the status of a variable. -/
def Hold (N : ℕ) (e : Option (List ℕ)) (h : DW) : Option Var → Prop
  | none => e = none
  | some (.val v) => ∃ l, e = some l ∧ l.length = N ∧ v = { h with data := l }
  | some .any => ∃ l, e = some l ∧ l.length = N
  | some .moved => e = some []

theorem ds_step {V : Type} {s : DS V} {op : DOp V} {e : ℕ → Option (List V)} (hs : Inv s) (h : seqStep s.elems op = some e) :
    ∃ d, step s op = some d ∧ Inv d ∧ d.elems = e := by
  obtain ⟨h1, h2⟩ := step_refines s hs op
  cases hd : step s op with
  | none => rw [h2 hd] at h; simp at h
  | some d =>
    obtain ⟨i, j⟩ := h1 d hd
    rw [h] at j
    exact ⟨d, rfl, i, (Option.some.inj j).symm⟩

theorem objs_none {V : Type} {s : DS V} (hs : Inv s) {x : ℕ} : s.elems x = none ↔ s.objs x = none := by
  have := hs.elems_isSome x
  cases h1 : s.elems x <;> cases h2 : s.objs x <;> simp_all

theorem assignList_spec {d : DS ℕ} (hs : Inv d) {x : ℕ} {lx l : List ℕ} (hx : d.elems x = some lx) (hl : l.length = lx.length) :
    ∃ d', OS.assignList d x l = some d' ∧ Inv d' ∧ d'.elems = upd d.elems x (some l) := by
  cases ho : d.objs x with
  | none => rw [elems_none ho] at hx; simp at hx
  | some o =>
    obtain ⟨l', e, el, -⟩ := hs.elems ho
    rw [hx] at e; obtain rfl := Option.some.inj e
    obtain ⟨a, b, c⟩ := write_spec hs ho (l := l) (by omega)
    refine ⟨d.write o l, ?_, a, funext fun z => ?_⟩
    · unfold OS.assignList
      rw [ho, hx]
      simp only [hl, min_self, List.drop_length, List.append_nil]
      rw [← hl, List.take_length]
    · by_cases hz : z = x
      · subst hz; rw [upd_same, b]
      · rw [upd_ne _ _ hz, c z hz]

/-- The invariant of a run. -/
def ORel (N : ℕ) (s : OS) (a : ℕ → Option Var) : Prop := Inv s.ds ∧ ∀ x, Hold N (s.ds.elems x) (s.head x) (a x)

theorem ORel.value {N : ℕ} {s : OS} {a : ℕ → Option Var} (h : ORel N s a) {x : ℕ} {v : DW} (hx : a x = some (.val v)) : s.value N x = some v := by
  have := h.2 x
  rw [hx] at this
  obtain ⟨l, e, n, rfl⟩ := this
  unfold OS.value
  rw [e]; simp [n]

theorem hold_upd {N : ℕ} {E : ℕ → Option (List ℕ)} {H : ℕ → DW} {a : ℕ → Option Var} (h : ∀ x, Hold N (E x) (H x) (a x)) {x : ℕ}
    {e : Option (List ℕ)} {w : DW} {b : Option Var} (hb : Hold N e w b) : ∀ z, Hold N (upd E x e z) (upd H x w z) (upd a x b z) := by
  intro z
  by_cases hz : z = x
  · subst hz; rw [upd_same, upd_same, upd_same]; exact hb
  · rw [upd_ne _ _ hz, upd_ne _ _ hz, upd_ne _ _ hz]; exact h z

/-- Changing the array of an object that is not read any more. -/
theorem hold_upd_e {N : ℕ} {E : ℕ → Option (List ℕ)} {H : ℕ → DW} {a : ℕ → Option Var} (h : ∀ x, Hold N (E x) (H x) (a x)) {x : ℕ}
    {e : Option (List ℕ)} {b : Option Var} (hb : Hold N e (H x) b) : ∀ z, Hold N (upd E x e z) (H z) (upd a x b z) := by
  intro z
  by_cases hz : z = x
  · subst hz; rw [upd_same, upd_same]; exact hb
  · rw [upd_ne _ _ hz, upd_ne _ _ hz]; exact h z

theorem upd_comm' {α : Type} (f : ℕ → α) {x y : ℕ} (h : x ≠ y) (a b : α) : upd (upd f x a) y b = upd (upd f y b) x a := by
  funext z; unfold upd; by_cases h1 : z = y <;> by_cases h2 : z = x <;> simp_all

theorem upd_upd' {α : Type} (f : ℕ → α) (x : ℕ) (a b : α) : upd (upd f x a) x b = upd f x b := by
  funext z; unfold upd; by_cases h1 : z = x <;> simp_all

theorem object_step {N : ℕ} {s : OS} {a a' : ℕ → Option Var} (h : ORel N s a) {op : OOp} (hs : varStep false N a op = some a') :
    ∃ s', OS.step N s op = some s' ∧ ORel N s' a' := by
  obtain ⟨hi, hh⟩ := h
  cases op with
  | make x v =>
    simp only [varStep] at hs
    split at hs
    · rename_i hx
      split at hs
      · rename_i hl
        obtain rfl := Option.some.inj hs
        have e := hh x; rw [hx] at e
        have ho := (objs_none hi).mp e
        obtain ⟨n1, n2, n3⟩ := newObj_spec hi ho v.data
        refine ⟨{ ds := s.ds.newObj x v.data, head := upd s.head x v }, by simp [OS.step, ho, hl], n1, ?_⟩
        have : (s.ds.newObj x v.data).elems = upd s.ds.elems x (some v.data) := by
          funext z
          by_cases hz : z = x
          · subst hz; rw [upd_same, n2]
          · rw [upd_ne _ _ hz, n3 z hz]
        rw [this]
        exact hold_upd hh ⟨v.data, rfl, hl, rfl⟩
      · simp at hs
    · simp at hs
  | copyConstruct x y =>
    simp only [varStep] at hs
    split at hs
    · rename_i v hx hy
      obtain rfl := Option.some.inj hs
      have e1 := hh x; rw [hx] at e1
      have e2 := hh y; rw [hy] at e2
      obtain ⟨l, f1, f2, f3⟩ := e2
      obtain ⟨d, d1, d2, d3⟩ := ds_step (op := .copyConstruct x y) hi (by simp only [seqStep]; rw [e1, f1]; rfl)
      refine ⟨{ ds := d, head := upd s.head x (s.head y) }, by simp only [OS.step, d1, Option.map_some], d2, ?_⟩
      simp only [d3]
      exact hold_upd hh ⟨l, rfl, f2, f3⟩
    · simp at hs
  | moveConstruct x y =>
    simp only [varStep] at hs
    split at hs
    · rename_i v hx hy
      obtain rfl := Option.some.inj hs
      have e1 := hh x; rw [hx] at e1
      have e2 := hh y; rw [hy] at e2
      obtain ⟨l, f1, f2, f3⟩ := e2
      obtain ⟨d, d1, d2, d3⟩ := ds_step (op := .moveConstruct x y) hi (by simp only [seqStep]; rw [e1, f1]; rfl)
      refine ⟨{ ds := d, head := upd s.head x (s.head y) }, by simp only [OS.step, d1, Option.map_some], d2, ?_⟩
      simp only [d3]
      exact hold_upd (hold_upd_e (x := y) (e := some []) (b := some .moved) hh rfl) ⟨l, rfl, f2, f3⟩
    · simp at hs
  | copyAssign x y =>
    have key : ∀ v, (∃ lx, s.ds.elems x = some lx ∧ lx.length = N) → a y = some (.val v) →
        ∃ s', OS.step N s (.copyAssign x y) = some s' ∧ ORel N s' (upd a x (some (.val v))) := by
      intro v ⟨lx, g1, g2⟩ hy
      have e2 := hh y; rw [hy] at e2
      obtain ⟨l, f1, f2, f3⟩ := e2
      obtain ⟨d, d1, d2, d3⟩ := ds_step (op := .copyAssign x y) (e := upd s.ds.elems x (some l)) hi (by
        simp only [seqStep]; rw [g1, f1]
        simp only [Option.bind_some, Option.map_some, g2, ← f2, List.take_length]
        rw [List.drop_of_length_le (by omega), List.append_nil])
      refine ⟨{ ds := d, head := upd s.head x (s.head y) }, by simp only [OS.step, d1, Option.map_some], d2, ?_⟩
      simp only [d3]
      exact hold_upd hh ⟨l, rfl, f2, f3⟩
    simp only [varStep] at hs
    split at hs
    · simp at hs
    · rename_i u v h0 hx hy
      obtain rfl := Option.some.inj hs
      have e1 := hh x
      rw [hx] at e1
      refine key v ?_ hy
      cases u with
      | val u => obtain ⟨l, f1, f2, -⟩ := e1; exact ⟨l, f1, f2⟩
      | any => exact e1
      | moved => exact (h0 rfl).elim
    · simp at hs
  | moveAssign x y =>
    have key : ∀ v (b : Var) lx, s.ds.elems x = some lx → a y = some (.val v) → (x ≠ y → Hold N (some lx) (s.head y) (some b)) →
        ∃ s', OS.step N s (.moveAssign x y) = some s' ∧ ORel N s' (upd (upd a y (some b)) x (some (.val v))) := by
      intro v b lx g1 hy hb
      have e2 := hh y; rw [hy] at e2
      obtain ⟨l, f1, f2, f3⟩ := e2
      obtain ⟨d, d1, d2, d3⟩ := ds_step (op := .moveAssign x y) (e := upd (upd s.ds.elems x (some l)) y (some lx)) hi (by
        simp only [seqStep]; rw [g1, f1]; rfl)
      refine ⟨{ ds := d, head := upd s.head x (s.head y) }, by simp only [OS.step, d1, Option.map_some], d2, ?_⟩
      simp only [d3]
      by_cases hxy : x = y
      · subst hxy
        rw [g1] at f1; obtain rfl := Option.some.inj f1
        rw [upd_upd', upd_upd']
        exact hold_upd hh ⟨lx, rfl, f2, f3⟩
      · rw [upd_comm' _ hxy]
        exact hold_upd (hold_upd_e hh (hb hxy)) ⟨l, rfl, f2, f3⟩
    simp only [varStep] at hs
    split at hs
    · rename_i v hx hy
      obtain rfl := Option.some.inj hs
      have e1 := hh x; rw [hx] at e1
      exact key v .moved [] e1 hy (fun _ => rfl)
    · rename_i u v h0 hx hy
      obtain rfl := Option.some.inj hs
      have e1 := hh x
      rw [hx] at e1
      cases u with
      | val u => obtain ⟨l, f1, f2, -⟩ := e1; exact key v .any l f1 hy (fun _ => ⟨l, rfl, f2⟩)
      | any => obtain ⟨l, f1, f2⟩ := e1; exact key v .any l f1 hy (fun _ => ⟨l, rfl, f2⟩)
      | moved => exact (h0 rfl).elim
    · simp at hs
  | swap x y =>
    simp only [varStep] at hs
    split at hs
    · rename_i v w hx hy
      obtain rfl := Option.some.inj hs
      have e1 := hh x; rw [hx] at e1
      have e2 := hh y; rw [hy] at e2
      obtain ⟨l, f1, f2, f3⟩ := e1
      obtain ⟨m, g1, g2, g3⟩ := e2
      by_cases hxy : x = y
      · subst hxy
        refine ⟨s, by simp [OS.step, f1], hi, fun z => ?_⟩
        rw [f1] at g1; obtain rfl := Option.some.inj g1
        rw [upd_upd']
        by_cases hz : z = x
        · subst hz; rw [upd_same]; exact ⟨l, f1, f2, f3⟩
        · rw [upd_ne _ _ hz]; exact hh z
      · obtain ⟨d, d1, d2, d3⟩ := assignList_spec hi f1 (l := m) (by omega)
        obtain ⟨d', p1, p2, p3⟩ := assignList_spec d2 (x := y) (lx := m) (l := l) (by rw [d3, upd_ne _ _ (Ne.symm hxy), g1]) (by omega)
        refine ⟨{ ds := d', head := upd (upd s.head x (s.head y)) y (s.head x) }, by simp [OS.step, f1, g1, hxy, d1, p1], p2, ?_⟩
        simp only [p3, d3]
        exact hold_upd (hold_upd (x := x) (e := some m) (w := s.head y) (b := some (.val w)) hh ⟨m, rfl, g2, g3⟩) ⟨l, rfl, f2, f3⟩
    · simp at hs
  | swapTemp x v =>
    simp only [varStep] at hs
    split at hs <;> simp at hs
  | apply x y f =>
    simp only [varStep] at hs
    split at hs
    · rename_i v w hx hy
      split at hs
      · rename_i hn
        obtain rfl := Option.some.inj hs
        have r1 := ORel.value ⟨hi, hh⟩ hx
        have r2 := ORel.value ⟨hi, hh⟩ hy
        have e1 := hh x; rw [hx] at e1
        obtain ⟨l, f1, f2, f3⟩ := e1
        cases ho : s.ds.objs x with
        | none => rw [elems_none ho] at f1; simp at f1
        | some o =>
          obtain ⟨l', e, el, -⟩ := hi.elems ho
          rw [f1] at e; obtain rfl := Option.some.inj e
          obtain ⟨q1, q2, q3⟩ := write_spec hi ho (l := (f v w).data) (by omega)
          refine ⟨{ ds := s.ds.write o (f v w).data, head := upd s.head x (f v w) }, by simp [OS.step, ho, r1, r2, hn], q1, ?_⟩
          have : (s.ds.write o (f v w).data).elems = upd s.ds.elems x (some (f v w).data) := by
            funext z
            by_cases hz : z = x
            · subst hz; rw [upd_same, q2]
            · rw [upd_ne _ _ hz, q3 z hz]
          simp only [this]
          exact hold_upd hh ⟨_, rfl, hn, rfl⟩
      · simp at hs
    · simp at hs
  | destroy x =>
    simp only [varStep] at hs
    cases hx : a x with
    | none => rw [hx] at hs; simp at hs
    | some u =>
      rw [hx] at hs
      obtain rfl := Option.some.inj hs
      have e1 := hh x
      rw [hx] at e1
      have : ∃ l, s.ds.elems x = some l := by
        cases u with
        | val u => obtain ⟨l, f, -⟩ := e1; exact ⟨l, f⟩
        | any => obtain ⟨l, f, -⟩ := e1; exact ⟨l, f⟩
        | moved => exact ⟨_, e1⟩
      obtain ⟨l, f⟩ := this
      obtain ⟨d, d1, d2, d3⟩ := ds_step (op := .destroy x) (e := upd s.ds.elems x none) hi (by simp only [seqStep]; rw [f]; rfl)
      refine ⟨{ s with ds := d }, by simp only [OS.step, d1, Option.map_some], d2, ?_⟩
      simp only [d3]
      exact hold_upd_e hh rfl

theorem object_run {N : ℕ} (ops : List OOp) : ∀ {s : OS} {a a' : ℕ → Option Var}, ORel N s a → varRun false N a ops = some a' →
    ∃ s', OS.run N s ops = some s' ∧ ORel N s' a' := by
  induction ops with
  | nil => intro s a a' h hr; simp only [varRun, Option.some.injEq] at hr; subst hr; exact ⟨s, rfl, h⟩
  | cons op ops ih =>
    intro s a a' h hr
    simp only [varRun] at hr
    cases h1 : varStep false N a op with
    | none => rw [h1] at hr; simp at hr
    | some b =>
      rw [h1] at hr
      obtain ⟨t, t1, t2⟩ := object_step h h1
      obtain ⟨s', s1, s2⟩ := ih t2 hr
      exact ⟨s', by simp only [OS.run, t1, Option.bind_some, s1], s2⟩

theorem orel_init (N : ℕ) : ORel N OS.init fun _ => none := ⟨inv_init, fun _ => rfl⟩

/-- C63, dynamic storage. For every program that does not read moved-from variables, does not copy-assign to a variable whose storage
    was moved away, and does not swap with a temporary: the run is defined, every variable that holds a value holds exactly
    that value (copies are independent, moves transfer it), and every allocated block belongs to exactly one live object (no
    leak, no double free; when all variables are destroyed no block remains).
    Missing for the full claim: copy assignment to a variable that was moved from, and swap with a temporary; both fail, see below. -/
theorem objects_hold_values_partial (N : ℕ) (ops : List OOp) (a : ℕ → Option Var) (h : varRun false N (fun _ => none) ops = some a) :
    ∃ s, OS.run N OS.init ops = some s ∧ (∀ x v, a x = some (.val v) → s.value N x = some v) ∧
      (∀ b, (s.ds.heap b).isSome → ∃! x, ∃ o, s.ds.objs x = some o ∧ o.ptr = some b) ∧ (∀ x, a x = none → s.ds.objs x = none) ∧
      ((∀ x, a x = none) → ∀ b, s.ds.heap b = none) := by
  obtain ⟨s, s1, s2⟩ := object_run ops (orel_init N) h
  have hd : ∀ x, a x = none → s.ds.objs x = none := fun x hx => by
    have := s2.2 x; rw [hx] at this; exact (objs_none s2.1).mp this
  refine ⟨s, s1, fun x v hx => s2.value hx, fun b hb => ?_, hd, fun hall b => ?_⟩
  · obtain ⟨l, hl⟩ := Option.isSome_iff_exists.mp hb
    obtain ⟨x, o, hx, ho⟩ := s2.1.owned b l hl
    exact ⟨x, ⟨o, hx, ho⟩, fun y ⟨o', hy, ho'⟩ => s2.1.inj y x o' o b hy hx ho' ho⟩
  · cases hb : s.ds.heap b with
    | none => rfl
    | some l =>
      obtain ⟨x, o, hx, -⟩ := s2.1.owned b l hb
      rw [hd x (hall x)] at hx; simp at hx

/-- C63, `std::swap` (a move construction and two move assignments) exchanges the values of two variables after any such history. -/
theorem std_swap_exchanges (N : ℕ) (ops : List OOp) (a : ℕ → Option Var) (h : varRun false N (fun _ => none) ops = some a) (x y t : ℕ)
    (v w : DW) (hx : a x = some (.val v)) (hy : a y = some (.val w)) (ht : a t = none) (hxy : x ≠ y) :
    ∃ s s', OS.run N OS.init ops = some s ∧ OS.run N s [.moveConstruct t x, .moveAssign x y, .moveAssign y t, .destroy t] = some s' ∧
      s'.value N x = some w ∧ s'.value N y = some v ∧ ∀ z u, z ≠ x → z ≠ y → a z = some (.val u) → s'.value N z = some u := by
  obtain ⟨s, s1, s2⟩ := object_run ops (orel_init N) h
  have htx : t ≠ x := by rintro rfl; rw [hx] at ht; simp at ht
  have hty : t ≠ y := by rintro rfl; rw [hy] at ht; simp at ht
  have hr : varRun false N a [.moveConstruct t x, .moveAssign x y, .moveAssign y t, .destroy t] =
      some (upd (upd (upd (upd (upd (upd (upd a x (some .moved)) t (some (.val v))) y (some .moved)) x (some (.val w))) t (some .moved)) y
        (some (.val v))) t none) := by
    simp [varRun, varStep, hx, hy, ht, upd_ne, hxy, hxy.symm, htx, hty, htx.symm, hty.symm]
  obtain ⟨s', p1, p2⟩ := object_run _ s2 hr
  refine ⟨s, s', s1, p1, p2.value ?_, p2.value ?_, fun z u hzx hzy hz => p2.value ?_⟩
  · simp [upd_ne, hxy, htx.symm]
  · simp [upd_ne, hty.symm]
  · have hzt : z ≠ t := by rintro rfl; rw [ht] at hz; simp at hz
    simp [upd_ne, hzx, hzy, hzt, hz]

/-- C63, static storage (no allocator): moved-from variables can be assigned to as well. (Swap with a temporary does not compile
    there.) -/
theorem objects_hold_values_static (N : ℕ) (ops : List OOp) (a : ℕ → Option Var) (h : varRun true N (fun _ => none) ops = some a)
    (hns : ∀ x v, OOp.swapTemp x v ∉ ops) :
    ∃ s, runStatic N (fun _ => none) ops = some s ∧ (∀ x v, a x = some (.val v) → s x = some v) ∧ (∀ x, (s x).isSome = (a x).isSome) := by
  have key : ∀ (ops : List OOp) (s : ℕ → Option DW) (b : ℕ → Option Var), (∀ x v, b x = some (.val v) → s x = some v) →
      (∀ x, (s x).isSome = (b x).isSome) → (∀ x v, OOp.swapTemp x v ∉ ops) → varRun true N b ops = some a →
      ∃ s', runStatic N s ops = some s' ∧ (∀ x v, a x = some (.val v) → s' x = some v) ∧ (∀ x, (s' x).isSome = (a x).isSome) := by
    intro ops
    induction ops with
    | nil => intro s b h1 h2 _ hr; simp only [varRun, Option.some.injEq] at hr; subst hr; exact ⟨s, rfl, h1, h2⟩
    | cons op ops ih =>
      intro s b h1 h2 hn hr
      simp only [varRun] at hr
      cases hb : varStep true N b op with
      | none => rw [hb] at hr; simp at hr
      | some b' =>
        rw [hb] at hr
        simp only [Option.bind_some] at hr
        suffices ∃ s1, stepStatic N s op = some s1 ∧ (∀ x v, b' x = some (.val v) → s1 x = some v) ∧ (∀ x, (s1 x).isSome = (b' x).isSome) by
          obtain ⟨s1, e1, e2, e3⟩ := this
          obtain ⟨s', f1, f2⟩ := ih s1 b' e2 e3 (fun x v hm => hn x v (List.mem_cons_of_mem _ hm)) hr
          exact ⟨s', by simp only [runStatic, e1, Option.bind_some, f1], f2⟩
        have live : ∀ x u, b x = some u → ∃ v, s x = some v := fun x u hx => by
          have := h2 x; rw [hx] at this; exact Option.isSome_iff_exists.mp this
        have dead : ∀ x, b x = none → s x = none := fun x hx => by
          have := h2 x; rw [hx] at this; simpa using this
        have one : ∀ x v, (∀ z u, upd b x (some (.val v)) z = some (.val u) → upd s x (some v) z = some u) ∧
            (∀ z, (upd s x (some v) z).isSome = (upd b x (some (.val v)) z).isSome) := by
          intro x v
          constructor
          · intro z u hz
            by_cases hzx : z = x
            · subst hzx; rw [upd_same] at hz ⊢; simp_all
            · rw [upd_ne _ _ hzx] at hz ⊢; exact h1 z u hz
          · intro z
            by_cases hzx : z = x
            · subst hzx; rw [upd_same, upd_same]; rfl
            · rw [upd_ne _ _ hzx, upd_ne _ _ hzx]; exact h2 z
        have two : ∀ x y v (c : Var), b y = some (.val v) → (∀ u, c ≠ .val u) →
            (∀ z u, upd (upd b y (some c)) x (some (.val v)) z = some (.val u) → upd s x (some v) z = some u) ∧
            (∀ z, (upd s x (some v) z).isSome = (upd (upd b y (some c)) x (some (.val v)) z).isSome) := by
          intro x y v c hy hc
          constructor
          · intro z u hz
            by_cases hzx : z = x
            · subst hzx; rw [upd_same] at hz ⊢; simp_all
            · rw [upd_ne _ _ hzx] at hz ⊢
              by_cases hzy : z = y
              · subst hzy; rw [upd_same] at hz; exact absurd (Option.some.inj hz) (hc u)
              · rw [upd_ne _ _ hzy] at hz; exact h1 z u hz
          · intro z
            by_cases hzx : z = x
            · subst hzx; rw [upd_same, upd_same]; rfl
            · rw [upd_ne _ _ hzx, upd_ne _ _ hzx]
              by_cases hzy : z = y
              · subst hzy; rw [upd_same, h2, hy]; rfl
              · rw [upd_ne _ _ hzy]; exact h2 z
        cases op with
        | make x v =>
          simp only [varStep] at hb
          split at hb
          · rename_i hx
            split at hb
            · rename_i hl
              obtain rfl := Option.some.inj hb
              exact ⟨upd s x (some v), by simp [stepStatic, dead x hx, hl], one x v⟩
            · simp at hb
          · simp at hb
        | copyConstruct x y =>
          simp only [varStep] at hb
          split at hb
          · rename_i v hx hy
            obtain rfl := Option.some.inj hb
            exact ⟨upd s x (some v), by simp [stepStatic, dead x hx, h1 y v hy], one x v⟩
          · simp at hb
        | moveConstruct x y =>
          simp only [varStep] at hb
          split at hb
          · rename_i v hx hy
            obtain rfl := Option.some.inj hb
            exact ⟨upd s x (some v), by simp [stepStatic, dead x hx, h1 y v hy], two x y v .moved hy (by simp)⟩
          · simp at hb
        | copyAssign x y =>
          simp only [varStep, if_true] at hb
          split at hb
          · rename_i v hx hy
            obtain rfl := Option.some.inj hb
            obtain ⟨u', hu⟩ := live x _ hx
            exact ⟨upd s x (some v), by simp [stepStatic, hu, h1 y v hy], one x v⟩
          · rename_i u v _ hx hy
            obtain rfl := Option.some.inj hb
            obtain ⟨u', hu⟩ := live x u hx
            exact ⟨upd s x (some v), by simp [stepStatic, hu, h1 y v hy], one x v⟩
          · simp at hb
        | moveAssign x y =>
          simp only [varStep] at hb
          split at hb
          · rename_i v hx hy
            obtain rfl := Option.some.inj hb
            obtain ⟨u', hu⟩ := live x _ hx
            exact ⟨upd s x (some v), by simp [stepStatic, hu, h1 y v hy], two x y v .moved hy (by simp)⟩
          · rename_i u v _ hx hy
            obtain rfl := Option.some.inj hb
            obtain ⟨u', hu⟩ := live x u hx
            exact ⟨upd s x (some v), by simp [stepStatic, hu, h1 y v hy], two x y v .any hy (by simp)⟩
          · simp at hb
        | swap x y =>
          simp only [varStep] at hb
          split at hb
          · rename_i v w hx hy
            obtain rfl := Option.some.inj hb
            refine ⟨upd (upd s x (some w)) y (some v), by simp [stepStatic, h1 x v hx, h1 y w hy], ?_, ?_⟩
            · intro z u hz
              by_cases hzy : z = y
              · subst hzy; rw [upd_same] at hz ⊢; simp_all
              · rw [upd_ne _ _ hzy] at hz ⊢; exact (one x w).1 z u hz
            · intro z
              by_cases hzy : z = y
              · subst hzy; rw [upd_same, upd_same]; rfl
              · rw [upd_ne _ _ hzy, upd_ne _ _ hzy]; exact (one x w).2 z
          · simp at hb
        | swapTemp x v => exact absurd List.mem_cons_self (hn x v)
        | apply x y f =>
          simp only [varStep] at hb
          split at hb
          · rename_i v w hx hy
            split at hb
            · rename_i hl
              obtain rfl := Option.some.inj hb
              exact ⟨upd s x (some (f v w)), by simp [stepStatic, h1 x v hx, h1 y w hy, hl], one x _⟩
            · simp at hb
          · simp at hb
        | destroy x =>
          simp only [varStep] at hb
          cases hx : b x with
          | none => rw [hx] at hb; simp at hb
          | some u =>
            rw [hx, Option.map_some, Option.some.injEq] at hb
            subst hb
            obtain ⟨u', hu⟩ := live x u hx
            refine ⟨upd s x none, by simp [stepStatic, hu], fun z w hz => ?_, fun z => ?_⟩
            · by_cases hzx : z = x
              · subst hzx; rw [upd_same] at hz; simp at hz
              · rw [upd_ne _ _ hzx] at hz ⊢; exact h1 z w hz
            · by_cases hzx : z = x
              · subst hzx; rw [upd_same, upd_same]; rfl
              · rw [upd_ne _ _ hzx, upd_ne _ _ hzx]; exact h2 z
  exact key ops _ _ (by simp) (by simp) hns h

/-- C63 is false with dynamic storage for copy assignment to a variable that was moved from (allowed by the rules of C++): for all
    numbers v and w, after `b = std::move(a)` (as construction) and `a = w`, the variable a has no limbs, so that reading it is undefined. -/
theorem moved_from_assignment_lost (N : ℕ) (hN : 0 < N) (v w : DW) (hv : v.data.length = N) (hw : w.data.length = N) :
    ∃ a s, varRun true N (fun _ => none) [.make 0 v, .make 1 w, .moveConstruct 2 0, .copyAssign 0 1] = some a ∧ a 0 = some (.val w) ∧
      OS.run N OS.init [.make 0 v, .make 1 w, .moveConstruct 2 0, .copyAssign 0 1] = some s ∧ s.value N 0 = none ∧
      ∀ f, OS.step N s (.apply 0 1 f) = none := by
  have hr : varRun false N (fun _ => none) [.make 0 v, .make 1 w, .moveConstruct 2 0] =
      some (upd (upd (upd (upd (fun _ => none) 0 (some (.val v))) 1 (some (.val w))) 0 (some .moved)) 2 (some (.val v))) := by
    simp [varRun, varStep, upd, hv, hw]
  obtain ⟨s, s1, s2⟩ := object_run _ (orel_init N) hr
  have h0 : s.ds.elems 0 = some [] := by have := s2.2 0; simp only [upd] at this; exact this
  obtain ⟨l, f1, f2, -⟩ : Hold N (s.ds.elems 1) (s.head 1) (some (.val w)) := by have := s2.2 1; simp only [upd] at this; exact this
  obtain ⟨d, d1, d2, d3⟩ := ds_step (op := .copyAssign 0 1) (e := upd s.ds.elems 0 (some [])) s2.1 (by
    simp only [seqStep]; rw [h0, f1]; simp)
  have hv0 : OS.value N { ds := d, head := upd s.head 0 (s.head 1) } 0 = none := by
    unfold OS.value
    simp only [d3, upd_same, List.length_nil]
    rw [if_neg (by omega)]
  refine ⟨upd (upd (upd (upd (upd (fun _ => none) 0 (some (.val v))) 1 (some (.val w))) 0 (some .moved)) 2 (some (.val v))) 0 (some (.val w)),
    { ds := d, head := upd s.head 0 (s.head 1) }, ?_, ?_, ?_, hv0, fun f => ?_⟩
  · simp [varRun, varStep, upd, hv, hw]
  · simp [upd]
  · have e : ∀ s', OS.run N s' [.make 0 v, .make 1 w, .moveConstruct 2 0, .copyAssign 0 1] =
        (OS.run N s' [.make 0 v, .make 1 w, .moveConstruct 2 0]).bind fun t => OS.step N t (.copyAssign 0 1) := by
      intro s'; simp [OS.run, Option.bind_assoc]
    rw [e, s1]
    simp only [Option.bind_some, OS.step, d1, Option.map_some]
  · simp only [OS.step]
    rw [hv0]
    split <;> simp_all

/-- C63 is false with dynamic storage for `x.swap(decwide_t(w))`: the block of the temporary is freed with it, so that afterwards x
    cannot be read, destroying x frees the block a second time, and the old block of x has no owner any more (leak). -/
theorem swap_with_temporary_dangles (N : ℕ) (hN : 0 < N) (v w : DW) (hv : v.data.length = N) (hw : w.data.length = N) :
    ∃ a s, varRun true N (fun _ => none) [.make 0 v, .swapTemp 0 w] = some a ∧ a 0 = some (.val w) ∧
      OS.run N OS.init [.make 0 v, .swapTemp 0 w] = some s ∧ s.value N 0 = none ∧ OS.step N s (.destroy 0) = none ∧
      (s.ds.heap 0).isSome ∧ ∀ x o, s.ds.objs x = some o → o.ptr ≠ some 0 := by
  refine ⟨upd (fun _ => none) 0 (some (.val w)),
    { ds := { heap := upd (upd (fun _ => none) 0 (some v.data)) 1 none, next := 2, objs := upd (fun _ => none) 0 (some { count := N, ptr := some 1 }) },
      head := upd (upd OS.init.head 0 v) 0 w }, ?_, rfl, ?_, ?_, ?_, ?_, ?_⟩
  · simp [varRun, varStep, hv, hw, upd_upd']
  · simp [OS.run, OS.step, OS.init, DS.init, newObj, hv, hw, hN, upd_upd']
  · unfold OS.value DS.elems; simp [upd]
  · simp [OS.step, DS.step, DS.release, upd]
  · simp [upd]
  · intro x o hx
    dsimp only at hx
    by_cases h : x = 0
    · subst h; rw [upd_same] at hx; obtain rfl := Option.some.inj hx; simp
    · rw [upd_ne _ _ h] at hx; simp at hx

def exA : DW := { data := [1, 0, 0], exp := 0, neg := false, prec := 3 }
def exB : DW := { data := [2, 5, 0], exp := 8, neg := true, prec := 3 }

/-- A program with copies, moves and in-place changes: the copy keeps its value, the moved value arrives, the swap exchanges. -/
example : ∃ a, varRun false 3 (fun _ => none) [.make 0 exA, .make 1 exB, .copyConstruct 2 0, .apply 0 1 (fun _ y => y), .moveConstruct 3 2,
      .moveAssign 2 1, .swap 0 3, .copyAssign 0 2, .destroy 2] = some a ∧ a 0 = some (.val exB) ∧ a 3 = some (.val exB) ∧ a 2 = none := by
  refine ⟨_, rfl, rfl, rfl, rfl⟩

end WD
