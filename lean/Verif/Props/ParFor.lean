import Verif.Model.ParFor
import Verif.Spec.ParFor
import Verif.Props.FloatK
import Mathlib.Data.List.Nodup
/-
  C74. `parallel_for`: every index once, in every schedule.
-/
namespace WD

theorem ParExec.perm {α : Type} {ts : List (List α)} {l : List α} (h : ParExec ts l) : l.Perm ts.flatten := by
  induction h with
  | fin h => rw [List.flatten_eq_nil_iff.mpr h]
  | step _ ih =>
    simp only [List.flatten_append, List.flatten_cons, List.cons_append] at ih ⊢
    exact (ih.cons _).trans List.perm_middle.symm

/-- Threads that run one after the other are one of the executions. -/
theorem ParExec.inOrder {α : Type} : ∀ ts : List (List α), ParExec ts ts.flatten := by
  intro ts
  obtain ⟨n, hn⟩ : ∃ n, n = ts.flatten.length := ⟨_, rfl⟩
  induction n generalizing ts with
  | zero =>
    have h0 : ts.flatten = [] := List.length_eq_zero_iff.mp hn.symm
    rw [h0]
    exact ParExec.fin (List.flatten_eq_nil_iff.mp h0)
  | succ n ih =>
    have split : ∀ ts : List (List α), ts.flatten ≠ [] → ∃ as x t us, ts = as ++ (x :: t) :: us ∧ as.flatten = [] := by
      intro ts
      induction ts with
      | nil => intro h; exact absurd rfl h
      | cons a as iha =>
        intro h
        cases a with
        | nil =>
          obtain ⟨bs, x, t, us, e1, e2⟩ := iha (by simpa using h)
          exact ⟨[] :: bs, x, t, us, by rw [e1]; rfl, by simpa using e2⟩
        | cons x t => exact ⟨[], x, t, as, rfl, rfl⟩
    obtain ⟨as, x, t, us, e1, e2⟩ := split ts (by intro hc; rw [hc] at hn; simp at hn)
    subst e1
    have h1 := ih (as ++ t :: us) (by
      simp only [List.flatten_append, List.flatten_cons, e2, List.nil_append, List.length_append, List.length_cons] at hn ⊢; omega)
    have h2 := ParExec.step (x := x) h1
    simpa only [List.flatten_append, List.flatten_cons, e2, List.nil_append, List.cons_append] using h2

theorem parLoop_spec {W slice fin : ℕ} (hs : 1 ≤ slice) (hW : fin + slice ≤ W) : ∀ k i1 i2, i1 ≤ fin → (i1 < fin → i2 = min (i1 + slice) fin) →
    ((parLoop W slice fin k i1 i2).1.map launchRange).flatten ++ List.range' (parLoop W slice fin k i1 i2).2 (fin - (parLoop W slice fin k i1 i2).2) =
      List.range' i1 (fin - i1) ∧ (parLoop W slice fin k i1 i2).1.length ≤ k ∧ (parLoop W slice fin k i1 i2).2 ≤ fin ∧
      ∀ r ∈ (parLoop W slice fin k i1 i2).1, r.1 < r.2 ∧ r.2 - r.1 ≤ slice
  | 0, i1, i2, h1, _ => ⟨by simp [parLoop], Nat.le_refl _, h1, by simp [parLoop]⟩
  | k + 1, i1, i2, h1, h2 => by
    by_cases hlt : i1 < fin
    · have h2' := h2 hlt
      have b1 : i1 < i2 := by omega
      have b2 : i2 ≤ fin := by omega
      have b3 : i2 - i1 ≤ slice := by omega
      obtain ⟨g1, g2, g3, g4⟩ := parLoop_spec hs hW k i2 (min ((i2 + slice) % W) fin) b2 (fun h => by
        rw [Nat.mod_eq_of_lt (by omega : i2 + slice < W)])
      have e : parLoop W slice fin (k + 1) i1 i2 =
          ((i1, i2) :: (parLoop W slice fin k i2 (min ((i2 + slice) % W) fin)).1, (parLoop W slice fin k i2 (min ((i2 + slice) % W) fin)).2) := by
        conv_lhs => unfold parLoop
        rw [if_pos hlt]
      rw [e]
      generalize parLoop W slice fin k i2 (min ((i2 + slice) % W) fin) = r at *
      refine ⟨?_, by simp only [List.length_cons]; omega, g3, fun x hx => ?_⟩
      · simp only [List.map_cons, List.flatten_cons, List.append_assoc, g1, launchRange]
        have e1 : fin - i1 = (i2 - i1) + (fin - i2) := by omega
        rw [e1, ← List.range'_append_1, show i1 + (i2 - i1) = i2 by omega]
      · rcases List.mem_cons.mp hx with rfl | hx
        · exact ⟨b1, b3⟩
        · exact g4 x hx
    · have e : parLoop W slice fin (k + 1) i1 i2 = ([], i1) := by
        conv_lhs => unfold parLoop
        rw [if_neg hlt]
      rw [e]
      exact ⟨by simp, by simp, h1, by simp⟩

theorem parSlice_pos (F : Flt) (W start fin nt : ℕ) : 1 ≤ parSlice F W start fin nt := Nat.le_max_right _ _

/-- **C74** (partial): the ranges of the threads, one after the other, are the indices from `start` to `fin` (exclusive) in order, for every index type, every number of threads and
    every rounding of the slice, unless `fin` is so close to the end of the index type that adding the slice to it wraps around (missing; false there, `parallel_for_wraps`).
    At most the given number of threads is launched, none for an empty range. -/
theorem parallel_for_partition_partial (F : Flt) (W start fin hint : ℕ) (hW : fin + parSlice F W start fin (parThreads hint) ≤ W) :
    (parallelFor F W start fin hint).flatten = sequentialFor start fin ∧ (parallelFor F W start fin hint).length ≤ parThreads hint ∧
    (fin ≤ start → parallelFor F W start fin hint = []) := by
  have hs := parSlice_pos F W start fin (parThreads hint)
  have hnt : 1 ≤ parThreads hint := by unfold parThreads; split <;> omega
  unfold parallelFor parRanges sequentialFor
  dsimp only
  generalize parSlice F W start fin (parThreads hint) = s at *
  generalize parThreads hint = nt at *
  by_cases hlt : start < fin
  · obtain ⟨g1, g2, g3, _⟩ := parLoop_spec hs hW (nt % W - 1) start (min ((start + s) % W) fin) hlt.le (fun h => by
      rw [Nat.mod_eq_of_lt (by omega : start + s < W)])
    generalize parLoop W s fin (nt % W - 1) start (min ((start + s) % W) fin) = r at *
    have hm := Nat.mod_le nt W
    refine ⟨?_, ?_, fun h => by omega⟩
    · rw [← g1, List.map_append, List.flatten_append]
      congr 1
      by_cases h : r.2 < fin
      · rw [if_pos h]; simp [launchRange]
      · rw [if_neg h, show fin - r.2 = 0 by omega]; rfl
    · rw [List.length_map, List.length_append]
      split <;> simp <;> omega
  · have e : ∀ k i2, parLoop W s fin k start i2 = ([], start) := by
      intro k i2
      cases k with
      | zero => rfl
      | succ k => unfold parLoop; rw [if_neg hlt]
    rw [e]
    simp only [if_neg hlt]
    refine ⟨by simp [show fin - start = 0 by omega], by simp, fun _ => by simp⟩

/-- **C74** (partial): in every schedule of the threads the function is called exactly once for every index of the range and for no other; and for functions whose calls commute the
    result is that of `sequential_for`, whatever the schedule. Missing: as in `parallel_for_partition_partial`. -/
theorem parallel_for_every_schedule_partial (F : Flt) (W start fin hint : ℕ) (hW : fin + parSlice F W start fin (parThreads hint) ≤ W) (calls : List ℕ)
    (hex : ParExec (parallelFor F W start fin hint) calls) :
    calls.Nodup ∧ (∀ i, i ∈ calls ↔ start ≤ i ∧ i < fin) ∧ calls.Perm (sequentialFor start fin) ∧
    ∀ (σ : Type) (f : σ → ℕ → σ), (∀ s i j, f (f s i) j = f (f s j) i) → ∀ s, calls.foldl f s = (sequentialFor start fin).foldl f s := by
  have hp := hex.perm
  rw [(parallel_for_partition_partial F W start fin hint hW).1] at hp
  refine ⟨hp.nodup_iff.mpr (List.nodup_range' 1), fun i => ?_, hp, fun σ f hf s => ?_⟩
  · rw [hp.mem_iff]
    unfold sequentialFor
    simp only [List.mem_range', Nat.one_mul]
    constructor
    · rintro ⟨k, h1, rfl⟩; omega
    · intro h; exact ⟨i - start, by omega, by omega⟩
  · haveI : RightCommutative f := ⟨hf⟩
    exact hp.foldl_eq s

/-- Non-vacuity: the indices 0 … 23 (test_high_precision_exp.cpp:196-203) on 5 threads, `float` arithmetic, 32-bit indices; and threads can always run one after the other. -/
example : parRanges exFloat (2 ^ 32) 0 24 5 = [(0, 5), (5, 10), (10, 15), (15, 20), (20, 24)] ∧ 24 + parSlice exFloat (2 ^ 32) 0 24 (parThreads 5) ≤ 2 ^ 32 ∧
    parThreads 0 = 4 ∧ ParExec (parallelFor exFloat (2 ^ 32) 0 24 5) (sequentialFor 0 24) := by
  have h : parRanges exFloat (2 ^ 32) 0 24 5 = [(0, 5), (5, 10), (10, 15), (15, 20), (20, 24)] := by decide +kernel
  have h2 : 24 + parSlice exFloat (2 ^ 32) 0 24 (parThreads 5) ≤ 2 ^ 32 := by decide +kernel
  refine ⟨h, h2, rfl, ?_⟩
  rw [← (parallel_for_partition_partial exFloat (2 ^ 32) 0 24 5 h2).1]
  exact ParExec.inOrder _

/-- Near the end of the index type the claim is false: for the indices 106 … 254 of an 8-bit type on 100 threads the function is called, in every schedule, for the index 0, which is
    not in the range, and twice for the index 200. -/
theorem parallel_for_wraps : ∀ calls, ParExec (parallelFor exFloat (2 ^ 8) 106 255 100) calls → 0 ∈ calls ∧ calls.count 200 = 2 := by
  intro calls h
  have hp := h.perm
  rw [hp.mem_iff, hp.count_eq]
  have : 0 ∈ (parallelFor exFloat (2 ^ 8) 106 255 100).flatten ∧ (parallelFor exFloat (2 ^ 8) 106 255 100).flatten.count 200 = 2 := by decide +kernel
  exact this

end WD
