import Verif.Spec.Thread
import Mathlib.Tactic.Linarith
import Mathlib.Tactic.Convert
/-
  Isolation: threads whose accesses stay in footprints that do not conflict end as if each had run alone.
-/
namespace WD
namespace Thr
open Prog Loc

/-- The invariant of one thread: a memory mi in which it could have got to its present program alone, equal to the common memory on its footprint. -/
structure Solo (R W : Loc → Bool) (q : Prog) (n : Nat) (m : Mem) (res : Mem) : Prop where
  solo : ∃ mi, exec R W q mi = some res ∧ (∀ l, R l = true ∨ W l = true → m l = mi l) ∧ steps q mi = n

theorem exec_frame {R W : Loc → Bool} : ∀ (q : Prog) (m m' : Mem), exec R W q m = some m' → ∀ l, W l = false → m' l = m l := by
  intro q
  induction q with
  | done => intro m m' h l hl; simp [exec] at h; rw [h]
  | load l0 k ih =>
    intro m m' h l hl
    simp only [exec] at h
    split at h
    · exact ih _ m m' h l hl
    · exact absurd h (by simp)
  | stor l0 v k ih =>
    intro m m' h l hl
    simp only [exec] at h
    split at h
    · rename_i hw
      rw [ih _ m' h l hl]
      unfold Mem.set
      rw [if_neg]
      rintro rfl
      rw [hw] at hl; cases hl
    · exact absurd h (by simp)

theorem step_other {R W Wj : Loc → Bool} {q : Prog} {n : Nat} {m m2 : Mem} {res : Mem} (h : Solo R W q n m res)
    (hm : ∀ l, m2 l ≠ m l → Wj l = true) (hd : ∀ l, Wj l = true → R l = false ∧ W l = false) : Solo R W q n m2 res := by
  obtain ⟨mi, h1, h2, h3⟩ := h
  refine ⟨mi, h1, fun l hl => ?_, h3⟩
  by_cases e : m2 l = m l
  · rw [e, h2 l hl]
  · obtain ⟨a, b⟩ := hd l (hm l e)
    rcases hl with g | g
    · rw [a] at g; cases g
    · rw [b] at g; cases g

/-- The state of the system after a prefix of a schedule: every thread i could have got there alone, with `cnt i` accesses left. -/
def Inv (R W : Nat → Loc → Bool) (res : Nat → Mem) (m0 : Mem) (s : Sys) (cnt : Nat → Nat) : Prop :=
  (∀ i, Solo (R i) (W i) (s.threads i) (cnt i) s.mem (res i)) ∧ ∀ l, (∀ i, W i l = false) → s.mem l = m0 l

theorem inv_step {R W : Nat → Loc → Bool} {res : Nat → Mem} {m0 : Mem} {s : Sys} {cnt : Nat → Nat}
    (hd : ∀ i j, i ≠ j → ∀ l, W i l = true → R j l = false ∧ W j l = false) (h : Inv R W res m0 s cnt) (i : Nat) :
    Inv R W res m0 (stepT s i) (fun j => if j = i then cnt j - 1 else cnt j) := by
  obtain ⟨h, hf⟩ := h
  obtain ⟨mi, h1, h2, h3⟩ := h i
  unfold stepT
  cases hq : s.threads i with
  | done =>
    refine ⟨fun j => ?_, hf⟩
    by_cases e : j = i
    · subst e
      show Solo _ _ (s.threads j) (if j = j then cnt j - 1 else cnt j) s.mem (res j)
      rw [if_pos rfl, hq]
      refine ⟨mi, by rw [hq] at h1; exact h1, h2, ?_⟩
      rw [hq] at h3; simp [steps] at h3 ⊢; omega
    · show Solo _ _ (s.threads j) (if j = i then cnt j - 1 else cnt j) s.mem (res j)
      rw [if_neg e]; exact h j
  | load l k =>
    rw [hq] at h1 h3
    simp only [exec] at h1
    split at h1
    case isFalse => cases h1
    rename_i hr
    refine ⟨fun j => ?_, hf⟩
    by_cases e : j = i
    · subst e
      show Solo _ _ (if j = j then k (s.mem l) else s.threads j) (if j = j then cnt j - 1 else cnt j) s.mem (res j)
      rw [if_pos rfl, if_pos rfl]
      rw [h2 l (Or.inl hr)]
      refine ⟨mi, h1, h2, ?_⟩
      simp only [steps] at h3; omega
    · show Solo _ _ (if j = i then k (s.mem l) else s.threads j) (if j = i then cnt j - 1 else cnt j) s.mem (res j)
      rw [if_neg e, if_neg e]; exact h j
  | stor l v k =>
    rw [hq] at h1 h3
    simp only [exec] at h1
    split at h1
    case isFalse => cases h1
    rename_i hw
    have ch : ∀ l', s.mem.set l v l' ≠ s.mem l' → W i l' = true := by
      intro l' hl'
      unfold Mem.set at hl'
      by_cases e : l' = l
      · rw [e]; exact hw
      · rw [if_neg e] at hl'; exact absurd rfl hl'
    refine ⟨fun j => ?_, fun l' hl' => ?_⟩
    · by_cases e : j = i
      · subst e
        show Solo _ _ (if j = j then k else s.threads j) (if j = j then cnt j - 1 else cnt j) (s.mem.set l v) (res j)
        rw [if_pos rfl, if_pos rfl]
        refine ⟨mi.set l v, h1, fun l' hl' => ?_, ?_⟩
        · unfold Mem.set
          by_cases e : l' = l
          · rw [if_pos e, if_pos e]
          · rw [if_neg e, if_neg e]; exact h2 l' hl'
        · simp only [steps] at h3; omega
      · show Solo _ _ (if j = i then k else s.threads j) (if j = i then cnt j - 1 else cnt j) (s.mem.set l v) (res j)
        rw [if_neg e, if_neg e]
        exact step_other (h j) ch (fun l' hl' => hd i j (Ne.symm e) l' hl')
    · show s.mem.set l v l' = m0 l'
      rw [← hf l' hl']
      by_contra hc
      have := ch l' hc
      rw [hl' i] at this; cases this

theorem inv_run {R W : Nat → Loc → Bool} {res : Nat → Mem} {m0 : Mem}
    (hd : ∀ i j, i ≠ j → ∀ l, W i l = true → R j l = false ∧ W j l = false) : ∀ (sched : List Nat) (s : Sys) (cnt : Nat → Nat), Inv R W res m0 s cnt →
    Inv R W res m0 (runS s sched) (fun j => cnt j - sched.count j)
  | [], s, cnt, h => by simpa [runS] using h
  | i :: sched, s, cnt, h => by
    have := inv_run hd sched (stepT s i) _ (inv_step hd h i)
    unfold runS at this ⊢
    rw [List.foldl_cons]
    convert this using 2 with j
    rw [List.count_cons]
    by_cases e : j = i
    · subst e; simp; omega
    · rw [if_neg e]
      have : (i == j) = false := by simp [Ne.symm e]
      simp [this]

/-- Threads with footprints that do not conflict: whatever the schedule, a thread that has performed all its accesses has, on its footprint, the memory it would have left
    alone; it is done once it was scheduled as often as it would have needed alone; nothing outside the written footprints changes. -/
theorem isolation (R W : Nat → Loc → Bool) (ps : Nat → Prog) (m : Mem) (res : Nat → Mem) (h : ∀ i, exec (R i) (W i) (ps i) m = some (res i))
    (hd : ∀ i j, i ≠ j → ∀ l, W i l = true → R j l = false ∧ W j l = false) (sched : List Nat) :
    let s := runS ⟨ps, m⟩ sched
    (∀ i, s.threads i = done → ∀ l, R i l = true ∨ W i l = true → s.mem l = res i l) ∧
    (∀ i, steps (ps i) m ≤ sched.count i → s.threads i = done) ∧ ∀ l, (∀ i, W i l = false) → s.mem l = m l := by
  intro s
  have h0 : Inv R W res m ⟨ps, m⟩ (fun i => steps (ps i) m) := ⟨fun i => ⟨m, h i, fun _ _ => rfl, rfl⟩, fun _ _ => rfl⟩
  obtain ⟨g1, g2⟩ := inv_run hd sched _ _ h0
  refine ⟨fun i hi l hl => ?_, fun i hi => ?_, g2⟩
  · obtain ⟨mi, a1, a2, -⟩ := g1 i
    have : s.threads i = done := hi
    change exec (R i) (W i) (s.threads i) mi = _ at a1
    rw [this] at a1
    simp only [exec, Option.some.injEq] at a1
    rw [← a1]; exact a2 l hl
  · obtain ⟨mi, a1, a2, a3⟩ := g1 i
    change steps (s.threads i) mi = steps (ps i) m - sched.count i at a3
    have : steps (ps i) m - sched.count i = 0 := by omega
    rw [this] at a3
    cases hq : s.threads i with
    | done => rfl
    | load l k => rw [hq] at a3; simp [steps] at a3
    | stor l v k => rw [hq] at a3; simp [steps] at a3

/-- No data race: at no point of any schedule are a write of one thread and an access of another to the same location both next. -/
theorem no_race (R W : Nat → Loc → Bool) (ps : Nat → Prog) (m : Mem) (res : Nat → Mem) (h : ∀ i, exec (R i) (W i) (ps i) m = some (res i))
    (hd : ∀ i j, i ≠ j → ∀ l, W i l = true → R j l = false ∧ W j l = false) (sched : List Nat) (i j : Nat) (hij : i ≠ j) (l : Loc) (b : Bool) :
    let s := runS ⟨ps, m⟩ sched
    next (s.threads i) = some (l, true) → next (s.threads j) ≠ some (l, b) := by
  intro s hi hj
  have h0 : Inv R W res m ⟨ps, m⟩ (fun i => steps (ps i) m) := ⟨fun i => ⟨m, h i, fun _ _ => rfl, rfl⟩, fun _ _ => rfl⟩
  obtain ⟨g1, -⟩ := inv_run hd sched _ _ h0
  obtain ⟨mi, a1, -, -⟩ := g1 i
  obtain ⟨mj, b1, -, -⟩ := g1 j
  change exec (R i) (W i) (s.threads i) mi = _ at a1
  change exec (R j) (W j) (s.threads j) mj = _ at b1
  have wi : W i l = true := by
    cases hq : s.threads i with
    | done => rw [hq] at hi; simp [next] at hi
    | load l' k => rw [hq] at hi; simp [next] at hi
    | stor l' v k =>
      rw [hq] at hi a1
      simp only [next, Option.some.injEq, Prod.mk.injEq, and_true] at hi
      subst hi
      by_contra hc
      simp [exec, hc] at a1
  obtain ⟨d1, d2⟩ := hd i j hij l wi
  cases hq : s.threads j with
  | done => rw [hq] at hj; simp [next] at hj
  | load l' k =>
    rw [hq] at hj b1
    simp only [next, Option.some.injEq, Prod.mk.injEq] at hj
    rw [hj.1] at b1
    simp [exec, d1] at b1
  | stor l' v k =>
    rw [hq] at hj b1
    simp only [next, Option.some.injEq, Prod.mk.injEq] at hj
    rw [hj.1] at b1
    simp [exec, d2] at b1

end Thr
end WD
