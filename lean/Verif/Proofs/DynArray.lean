import Verif.Model.Util
import Mathlib.Tactic.Linarith
/-
  dynamic_array: the heap model refines sequences.
-/
namespace WD
namespace Util
namespace DS
variable {V : Type}

/-- Ownership invariant. -/
structure Inv (s : DS V) : Prop where
  ok : ∀ x o, s.objs x = some o → (o.ptr = none ∧ o.count = 0) ∨ (∃ b l, o.ptr = some b ∧ s.heap b = some l ∧ l.length = o.count)
  inj : ∀ x y o o' b, s.objs x = some o → s.objs y = some o' → o.ptr = some b → o'.ptr = some b → x = y
  owned : ∀ b l, s.heap b = some l → ∃ x o, s.objs x = some o ∧ o.ptr = some b
  fresh : ∀ b l, s.heap b = some l → b < s.next

@[simp] theorem upd_same {α : Type} (f : Nat → α) (k : Nat) (a : α) : upd f k a k = a := by simp [upd]
theorem upd_ne {α : Type} (f : Nat → α) {k i : Nat} (a : α) (h : i ≠ k) : upd f k a i = f i := by simp [upd, h]

theorem elems_none {s : DS V} {x : Nat} (h : s.objs x = none) : elems s x = none := by simp [elems, h]

/-- Elements of a live object under the invariant. -/
theorem Inv.elems {s : DS V} (hs : Inv s) {x : Nat} {o : DA} (h : s.objs x = some o) :
    ∃ l, elems s x = some l ∧ l.length = o.count ∧ (∀ b, o.ptr = some b → s.heap b = some l) := by
  rcases hs.ok x o h with ⟨h1, h2⟩ | ⟨b, l, h1, h2, h3⟩
  · refine ⟨[], by simp [DS.elems, h, h1, h2], by simp [h2], fun b hb => by rw [h1] at hb; simp at hb⟩
  · refine ⟨l, by simp [DS.elems, h, h1, h2, ← h3], h3, fun b' hb => ?_⟩
    rw [h1] at hb; obtain rfl := Option.some.inj hb; exact h2

theorem Inv.elems_isSome {s : DS V} (hs : Inv s) (x : Nat) : (s.elems x).isSome = (s.objs x).isSome := by
  cases h : s.objs x with
  | none => rw [elems_none h]; rfl
  | some o => obtain ⟨l, e, -⟩ := hs.elems h; rw [e]; rfl

/-- `elems` depends only on the object and its block. -/
theorem elems_congr {s t : DS V} {x y : Nat} (ho : s.objs x = t.objs y) (hh : ∀ o b, s.objs x = some o → o.ptr = some b → s.heap b = t.heap b) :
    elems s x = elems t y := by
  unfold DS.elems
  rw [← ho]
  cases h : s.objs x with
  | none => rfl
  | some o =>
    simp only
    cases hp : o.ptr with
    | none => rfl
    | some b => simp only [hh o b h hp]

theorem newObj_spec {s : DS V} (hs : Inv s) {x : Nat} (hx : s.objs x = none) (l : List V) :
    Inv (newObj s x l) ∧ elems (newObj s x l) x = some l ∧ (∀ z, z ≠ x → elems (newObj s x l) z = elems s z) := by
  unfold newObj
  by_cases hl : 0 < l.length
  · rw [if_pos hl]
    have hnone : s.heap s.next = none := by
      cases h : s.heap s.next with
      | none => rfl
      | some m => exact absurd (hs.fresh _ _ h) (by omega)
    have hold : ∀ z o b, s.objs z = some o → o.ptr = some b → b ≠ s.next := by
      intro z o b hz hb hc
      rcases hs.ok z o hz with ⟨h1, -⟩ | ⟨b', m, h1, h2, -⟩
      · rw [h1] at hb; simp at hb
      · rw [h1] at hb; obtain rfl := Option.some.inj hb
        rw [hc, hnone] at h2; simp at h2
    refine ⟨⟨?_, ?_, ?_, ?_⟩, ?_, ?_⟩
    · intro z o hz
      by_cases hzx : z = x
      · subst hzx
        simp only [upd_same, Option.some.injEq] at hz
        subst hz
        exact Or.inr ⟨s.next, l, rfl, by simp, rfl⟩
      · simp only [upd_ne _ _ hzx] at hz
        rcases hs.ok z o hz with h | ⟨b, m, h1, h2, h3⟩
        · exact Or.inl h
        · exact Or.inr ⟨b, m, h1, by simp only [upd_ne _ _ (hold z o b hz h1)]; exact h2, h3⟩
    · intro z w o o' b hz hw ho ho'
      by_cases hzx : z = x <;> by_cases hwx : w = x
      · rw [hzx, hwx]
      · exfalso
        subst hzx
        simp only [upd_same, Option.some.injEq] at hz
        subst hz
        simp only [upd_ne _ _ hwx] at hw
        exact hold w o' b hw ho' (Option.some.inj ho).symm
      · exfalso
        subst hwx
        simp only [upd_same, Option.some.injEq] at hw
        subst hw
        simp only [upd_ne _ _ hzx] at hz
        exact hold z o b hz ho (Option.some.inj ho').symm
      · simp only [upd_ne _ _ hzx] at hz
        simp only [upd_ne _ _ hwx] at hw
        exact hs.inj z w o o' b hz hw ho ho'
    · intro b m hb
      by_cases hbn : b = s.next
      · exact ⟨x, _, upd_same _ _ _, by rw [hbn]⟩
      · simp only [upd_ne _ _ hbn] at hb
        obtain ⟨z, o, hz, ho⟩ := hs.owned b m hb
        have hzx : z ≠ x := by rintro rfl; rw [hx] at hz; simp at hz
        exact ⟨z, o, by simp only [upd_ne _ _ hzx]; exact hz, ho⟩
    · intro b m hb
      show b < s.next + 1
      by_cases hbn : b = s.next
      · omega
      · simp only [upd_ne _ _ hbn] at hb
        have := hs.fresh b m hb
        omega
    · simp [DS.elems]
    · intro z hz
      apply elems_congr
      · simp only [upd_ne _ _ hz]
      · intro o b ho hb
        simp only [upd_ne _ _ hz] at ho
        simp only [upd_ne _ _ (hold z o b ho hb)]
  · rw [if_neg hl]
    have hl0 : l = [] := by
      cases l with
      | nil => rfl
      | cons _ _ => simp at hl
    refine ⟨⟨?_, ?_, ?_, hs.fresh⟩, ?_, ?_⟩
    · intro z o hz
      by_cases hzx : z = x
      · subst hzx
        simp only [upd_same, Option.some.injEq] at hz
        subst hz
        exact Or.inl ⟨rfl, rfl⟩
      · simp only [upd_ne _ _ hzx] at hz
        exact hs.ok z o hz
    · intro z w o o' b hz hw ho ho'
      by_cases hzx : z = x
      · subst hzx
        simp only [upd_same, Option.some.injEq] at hz
        subst hz
        simp at ho
      by_cases hwx : w = x
      · subst hwx
        simp only [upd_same, Option.some.injEq] at hw
        subst hw
        simp at ho'
      simp only [upd_ne _ _ hzx] at hz
      simp only [upd_ne _ _ hwx] at hw
      exact hs.inj z w o o' b hz hw ho ho'
    · intro b m hb
      obtain ⟨z, o, hz, ho⟩ := hs.owned b m hb
      have hzx : z ≠ x := by rintro rfl; rw [hx] at hz; simp at hz
      exact ⟨z, o, by simp only [upd_ne _ _ hzx]; exact hz, ho⟩
    · simp [DS.elems, hl0]
    · intro z hz
      apply elems_congr
      · simp only [upd_ne _ _ hz]
      · intro o b _ _; rfl

theorem write_spec {s : DS V} (hs : Inv s) {x : Nat} {o : DA} (hx : s.objs x = some o) {l : List V} (hl : l.length = o.count) :
    Inv (write s o l) ∧ elems (write s o l) x = some l ∧ (∀ z, z ≠ x → elems (write s o l) z = elems s z) := by
  unfold write
  cases hp : o.ptr with
  | none =>
    simp only
    rcases hs.ok x o hx with ⟨-, h2⟩ | ⟨b, m, h1, -, -⟩
    · have : l = [] := by rw [h2] at hl; exact List.length_eq_zero_iff.mp hl
      refine ⟨hs, ?_, by simp⟩
      simp [DS.elems, hx, hp, h2, this]
    · rw [hp] at h1; simp at h1
  | some b =>
    simp only
    refine ⟨⟨?_, hs.inj, ?_, ?_⟩, ?_, ?_⟩
    · intro z o' hz
      rcases hs.ok z o' hz with h | ⟨b', m, h1, h2, h3⟩
      · exact Or.inl h
      · right
        by_cases hb : b' = b
        · subst hb
          have hzx := hs.inj z x o' o b' hz hx h1 hp
          subst hzx
          have : o' = o := by rw [hx] at hz; exact (Option.some.inj hz).symm
          exact ⟨b', l, h1, by simp, by rw [this]; exact hl⟩
        · exact ⟨b', m, h1, by simp only [upd_ne _ _ hb]; exact h2, h3⟩
    · intro b' m hb
      by_cases h : b' = b
      · exact ⟨x, o, hx, by rw [h]; exact hp⟩
      · simp only [upd_ne _ _ h] at hb
        exact hs.owned b' m hb
    · intro b' m hb
      by_cases h : b' = b
      · subst h
        rcases hs.ok x o hx with ⟨h1, -⟩ | ⟨b'', m', h1, h2, -⟩
        · rw [hp] at h1; simp at h1
        · rw [hp] at h1; obtain rfl := Option.some.inj h1
          exact hs.fresh _ _ h2
      · simp only [upd_ne _ _ h] at hb
        exact hs.fresh b' m hb
    · simp [DS.elems, hx, hp, ← hl]
    · intro z hz
      apply elems_congr
      · rfl
      · intro o' b' ho hb
        have : b' ≠ b := by
          rintro rfl
          exact hz (hs.inj z x o' o b' ho hx hb hp)
        simp only [upd_ne _ _ this]

theorem release_spec {s : DS V} (hs : Inv s) {x : Nat} {o : DA} (hx : s.objs x = some o) :
    ∃ s', release s o = some s' ∧ Inv { s' with objs := upd s'.objs x none } ∧
      elems { s' with objs := upd s'.objs x none } x = none ∧
      (∀ z, z ≠ x → elems { s' with objs := upd s'.objs x none } z = elems s z) := by
  unfold release
  cases hp : o.ptr with
  | none =>
    simp only
    refine ⟨s, rfl, ⟨?_, ?_, ?_, hs.fresh⟩, by simp [DS.elems], ?_⟩
    · intro z o' hz
      by_cases hzx : z = x
      · subst hzx; simp at hz
      · simp only [upd_ne _ _ hzx] at hz; exact hs.ok z o' hz
    · intro z w o1 o2 b hz hw h1 h2
      by_cases hzx : z = x
      · subst hzx; simp at hz
      by_cases hwx : w = x
      · subst hwx; simp at hw
      simp only [upd_ne _ _ hzx] at hz
      simp only [upd_ne _ _ hwx] at hw
      exact hs.inj z w o1 o2 b hz hw h1 h2
    · intro b m hb
      obtain ⟨z, o', hz, ho⟩ := hs.owned b m hb
      have hzx : z ≠ x := by
        rintro rfl
        rw [hx] at hz; obtain rfl := Option.some.inj hz
        rw [hp] at ho; simp at ho
      exact ⟨z, o', by simp only [upd_ne _ _ hzx]; exact hz, ho⟩
    · intro z hz
      apply elems_congr
      · simp only [upd_ne _ _ hz]
      · intro _ _ _ _; rfl
  | some b =>
    simp only
    have hb : (s.heap b).isSome := by
      rcases hs.ok x o hx with ⟨h1, -⟩ | ⟨b', m, h1, h2, -⟩
      · rw [hp] at h1; simp at h1
      · rw [hp] at h1; obtain rfl := Option.some.inj h1; rw [h2]; rfl
    rw [if_pos hb]
    have hother : ∀ z o' b', z ≠ x → s.objs z = some o' → o'.ptr = some b' → b' ≠ b := by
      rintro z o' b' hz ho hb' rfl
      exact hz (hs.inj z x o' o b' ho hx hb' hp)
    refine ⟨_, rfl, ⟨?_, ?_, ?_, ?_⟩, by simp [DS.elems], ?_⟩
    · intro z o' hz
      by_cases hzx : z = x
      · subst hzx; simp at hz
      · simp only [upd_ne _ _ hzx] at hz
        rcases hs.ok z o' hz with h | ⟨b', m, h1, h2, h3⟩
        · exact Or.inl h
        · exact Or.inr ⟨b', m, h1, by simp only [upd_ne _ _ (hother z o' b' hzx hz h1)]; exact h2, h3⟩
    · intro z w o1 o2 b' hz hw h1 h2
      by_cases hzx : z = x
      · subst hzx; simp at hz
      by_cases hwx : w = x
      · subst hwx; simp at hw
      simp only [upd_ne _ _ hzx] at hz
      simp only [upd_ne _ _ hwx] at hw
      exact hs.inj z w o1 o2 b' hz hw h1 h2
    · intro b' m hb'
      by_cases h : b' = b
      · subst h; simp at hb'
      · simp only [upd_ne _ _ h] at hb'
        obtain ⟨z, o', hz, ho⟩ := hs.owned b' m hb'
        have hzx : z ≠ x := by
          rintro rfl
          rw [hx] at hz; obtain rfl := Option.some.inj hz
          rw [hp] at ho; exact h (Option.some.inj ho).symm
        exact ⟨z, o', by simp only [upd_ne _ _ hzx]; exact hz, ho⟩
    · intro b' m hb'
      by_cases h : b' = b
      · subst h; simp at hb'
      · simp only [upd_ne _ _ h] at hb'; exact hs.fresh b' m hb'
    · intro z hz
      apply elems_congr
      · simp only [upd_ne _ _ hz]
      · intro o' b' ho hb'
        simp only [upd_ne _ _ hz] at ho
        simp only [upd_ne _ _ (hother z o' b' hz ho hb')]

/-- Exchanging the members of two objects. -/
theorem exch_spec {s : DS V} (hs : Inv s) {x y : Nat} {ox oy : DA} (hx : s.objs x = some ox) (hy : s.objs y = some oy) :
    let t : DS V := { s with objs := upd (upd s.objs x (some oy)) y (some ox) }
    Inv t ∧ elems t x = elems s y ∧ elems t y = elems s x ∧ (∀ z, z ≠ x → z ≠ y → elems t z = elems s z) := by
  intro t
  -- the object named z in t is the object named π z in s
  have hobj : ∀ z, t.objs z = s.objs (if z = y then x else if z = x then y else z) := by
    intro z
    show upd (upd s.objs x (some oy)) y (some ox) z = _
    by_cases hzy : z = y
    · subst hzy; simp [hx]
    · rw [upd_ne _ _ hzy, if_neg hzy]
      by_cases hzx : z = x
      · subst hzx; simp [hy]
      · rw [upd_ne _ _ hzx, if_neg hzx]
  have hπ : ∀ z w : Nat, (if z = y then x else if z = x then y else z) = (if w = y then x else if w = x then y else w) → z = w := by
    intro z w h
    by_cases h1 : z = y <;> by_cases h2 : w = y <;> by_cases h3 : z = x <;> by_cases h4 : w = x <;> simp_all
  refine ⟨⟨?_, ?_, ?_, hs.fresh⟩, ?_, ?_, ?_⟩
  · intro z o hz; rw [hobj] at hz; exact hs.ok _ o hz
  · intro z w o o' b hz hw ho ho'
    rw [hobj] at hz hw
    exact hπ z w (hs.inj _ _ o o' b hz hw ho ho')
  · intro b m hb
    obtain ⟨z, o, hz, ho⟩ := hs.owned b m hb
    refine ⟨if z = y then x else if z = x then y else z, o, ?_, ho⟩
    rw [hobj]
    by_cases h1 : z = y
    · subst h1
      rw [if_pos rfl]
      by_cases h2 : x = z
      · subst h2; simpa using hz
      · rw [if_neg h2, if_pos rfl]; exact hz
    · rw [if_neg h1]
      by_cases h2 : z = x
      · subst h2; simpa using hz
      · rw [if_neg h2, if_neg h1, if_neg h2]; exact hz
  · apply elems_congr
    · rw [hobj]
      by_cases h : x = y
      · subst h; simp
      · rw [if_neg h, if_pos rfl]
    · intro _ _ _ _; rfl
  · apply elems_congr
    · rw [hobj, if_pos rfl]
    · intro _ _ _ _; rfl
  · intro z hzx hzy
    apply elems_congr
    · rw [hobj, if_neg hzy, if_neg hzx]
    · intro _ _ _ _; rfl

theorem move_spec {s : DS V} (hs : Inv s) {x y : Nat} {o : DA} (hx : s.objs x = none) (hy : s.objs y = some o) :
    let t : DS V := { s with objs := upd (upd s.objs y (some { count := 0, ptr := none })) x (some o) }
    Inv t ∧ elems t x = elems s y ∧ elems t y = some [] ∧ (∀ z, z ≠ x → z ≠ y → elems t z = elems s z) := by
  intro t
  have hxy : x ≠ y := by rintro rfl; rw [hx] at hy; simp at hy
  have e1 : t.objs x = some o := upd_same _ _ _
  have e2 : t.objs y = some { count := 0, ptr := none } := by
    show upd (upd s.objs y _) x (some o) y = _
    rw [upd_ne _ _ (Ne.symm hxy), upd_same]
  have e3 : ∀ z, z ≠ x → z ≠ y → t.objs z = s.objs z := by
    intro z h1 h2
    show upd (upd s.objs y _) x (some o) z = _
    rw [upd_ne _ _ h1, upd_ne _ _ h2]
  refine ⟨⟨?_, ?_, ?_, hs.fresh⟩, ?_, ?_, ?_⟩
  · intro z o' hz
    by_cases h1 : z = x
    · subst h1; rw [e1] at hz; obtain rfl := Option.some.inj hz; exact hs.ok y o hy
    by_cases h2 : z = y
    · subst h2; rw [e2] at hz; obtain rfl := Option.some.inj hz; exact Or.inl ⟨rfl, rfl⟩
    rw [e3 z h1 h2] at hz; exact hs.ok z o' hz
  · intro z w o1 o2 b hz hw h1 h2
    have key : ∀ z o1, t.objs z = some o1 → o1.ptr = some b → (z = x ∧ s.objs y = some o1) ∨ (z ≠ x ∧ z ≠ y ∧ s.objs z = some o1) := by
      intro z o1 hz h1
      by_cases hzx : z = x
      · subst hzx; rw [e1] at hz; obtain rfl := Option.some.inj hz; exact Or.inl ⟨rfl, hy⟩
      by_cases hzy : z = y
      · subst hzy; rw [e2] at hz; obtain rfl := Option.some.inj hz; simp at h1
      rw [e3 z hzx hzy] at hz; exact Or.inr ⟨hzx, hzy, hz⟩
    rcases key z o1 hz h1 with ⟨a1, a2⟩ | ⟨a1, a2, a3⟩ <;> rcases key w o2 hw h2 with ⟨b1, b2⟩ | ⟨b1, b2, b3⟩
    · rw [a1, b1]
    · exact absurd (hs.inj w y o2 o1 b b3 a2 h2 h1) b2
    · exact absurd (hs.inj z y o1 o2 b a3 b2 h1 h2) a2
    · exact hs.inj z w o1 o2 b a3 b3 h1 h2
  · intro b m hb
    obtain ⟨z, o', hz, ho⟩ := hs.owned b m hb
    by_cases h2 : z = y
    · subst h2; rw [hy] at hz; obtain rfl := Option.some.inj hz
      exact ⟨x, o, e1, ho⟩
    · have h1 : z ≠ x := by rintro rfl; rw [hx] at hz; simp at hz
      exact ⟨z, o', by rw [e3 z h1 h2]; exact hz, ho⟩
  · apply elems_congr
    · rw [e1, hy]
    · intro _ _ _ _; rfl
  · simp [DS.elems, e2]
  · intro z h1 h2
    apply elems_congr
    · exact e3 z h1 h2
    · intro _ _ _ _; rfl

end DS
end Util
end WD
