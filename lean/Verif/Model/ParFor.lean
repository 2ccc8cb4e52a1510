import Verif.Spec.Float
import Mathlib.Data.Rat.Floor
/-
  `my_concurrency::parallel_for` (test/parallel_for.h): how a range of indices is divided among threads, for an unsigned index type of W values.

  Simplifications: a rounded quotient outside the index type (undefined conversion) is reduced modulo W; starting, scheduling and joining of the threads are described by
  the specification (`ParExec`), not by a model of `std::thread`; the callback is one step.
-/
namespace WD

/-- `number_of_threads` (parallel_for.h:24-34). -/
def parThreads (hint : ℕ) : ℕ := if hint = 0 then 4 else hint

/-- `slice` (parallel_for.h:37-48): the range length plus one over the number of threads in `float`, rounded half away from zero. -/
def parSlice (F : Flt) (W start fin nt : ℕ) : ℕ :=
  let n := (((fin + (W - start)) % W) + 1) % W
  max (⌊F.rnd (F.rnd n / F.rnd nt) + 1 / 2⌋₊ % W) 1

/-- The loop launching all threads but the last (parallel_for.h:68-75); k more of them may be launched. Returns their ranges and the final `i1`. -/
def parLoop (W slice fin : ℕ) : ℕ → ℕ → ℕ → List (ℕ × ℕ) × ℕ
  | 0, i1, _ => ([], i1)
  | k + 1, i1, i2 =>
    if i1 < fin then
      let r := parLoop W slice fin k i2 (min ((i2 + slice) % W) fin)
      ((i1, i2) :: r.1, r.2)
    else ([], i1)

/-- The ranges handed to the threads (parallel_for.h:61-80). -/
def parRanges (F : Flt) (W start fin nt : ℕ) : List (ℕ × ℕ) :=
  let s := parSlice F W start fin nt
  let r := parLoop W s fin (nt % W - 1) start (min ((start + s) % W) fin)
  r.1 ++ (if r.2 < fin then [(r.2, fin)] else [])

/-- `launch_range` (parallel_for.h:51-58): the indices for which one thread calls the function, in this order. -/
def launchRange (r : ℕ × ℕ) : List ℕ := List.range' r.1 (r.2 - r.1)

/-- The calls of the threads of `parallel_for(start, fin, f)` (parallel_for.h:16-90). -/
def parallelFor (F : Flt) (W start fin hint : ℕ) : List (List ℕ) := (parRanges F W start fin (parThreads hint)).map launchRange

/-- `sequential_for` (parallel_for.h:92-103). -/
def sequentialFor (start fin : ℕ) : List ℕ := List.range' start (fin - start)

end WD
