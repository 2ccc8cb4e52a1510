import Mathlib.Data.List.Basic
/-
  Executions of several threads: in every step some thread performs its next call; the execution is over when all threads are.
-/
namespace WD

/-- The threads with these remaining calls may perform them in the order given by the second list. -/
inductive ParExec {α : Type} : List (List α) → List α → Prop
  | fin {ts : List (List α)} (h : ∀ t ∈ ts, t = []) : ParExec ts []
  | step {ts us : List (List α)} {x : α} {t l : List α} (h : ParExec (ts ++ t :: us) l) : ParExec (ts ++ (x :: t) :: us) (x :: l)

end WD
