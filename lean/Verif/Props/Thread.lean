import Verif.Proofs.ThreadOps
import Verif.Props.Alias
/-
  C66. Threads: objects that are not shared for writing may be used concurrently (default build); the result of every statement does not depend on what is left over in the
  scratch memory; with one common scratch memory (`WIDE_DECIMAL_DISABLE_DYNAMIC_MEMORY_ALLOCATION`) concurrent use is not possible.
-/
namespace WD
namespace Thr
open Prog Loc

/-- The arrays and members of a location belong to this object (or scratch array). -/
def ident : Loc → Nat
  | limb a _ => a
  | exp o => o
  | neg o => o
  | prec o => o

theorem ident_obj {N o : Nat} {l : Loc} (h : objL N o l = true) : ident l = o := by
  cases l <;> simp [objL] at h <;> simp [ident, h]

theorem ident_buf {n t : Nat} {l : Loc} (h : bufL n t l = true) : ident l = t := by
  cases l <;> simp [bufL] at h <;> simp [ident, h]

/-- The footprint of a thread. -/
def fpW (c : Cfg) (T : Thread) (l : Loc) : Bool := (decide (ident l ∈ T.writes) && objL c.N (ident l) l) || bufL c.N T.t l || bufL (scr c) T.r l
def fpR (c : Cfg) (T : Thread) (l : Loc) : Bool := (decide (ident l ∈ T.uses) && objL c.N (ident l) l) || bufL c.N T.t l || bufL (scr c) T.r l

theorem exec_thread (c : Cfg) (hN : c.N < 1793) (T : Thread) (m : Mem) (hop : ∀ op ∈ T.ops, op.ok c) (hs : ∀ o ∈ T.uses, o ≠ T.t ∧ o ≠ T.r)
    (hp : ∀ o ∈ T.uses, 1 ≤ (obj c m o).prec ∧ (obj c m o).prec ≤ c.N) :
    ∃ m', exec (fpR c T) (fpW c T) (opsProg c T.t T.r T.ops) m = some m' ∧ ∀ o ∈ T.uses, obj c m' o = runAt c (obj c m) T.ops o := by
  refine exec_ops c (U := fun o => o ∈ T.uses) (T := fun o => o ∈ T.writes) hN hs (fun o h => by simp only [Thread.writes, Thread.uses, List.mem_append] at *; exact Or.inl h)
    (fun o l ho hl => ?_) (fun l hl => ?_) (fun l hl => ?_) (fun o l ho hl => ?_) (fun l hl => ?_) (fun l hl => ?_) T.ops m (obj c m) (fun op h => ?_) (fun o ho => ⟨rfl, hp o ho⟩)
  · have := ident_obj hl; simp [fpR, this, ho, hl]
  · simp [fpR, hl]
  · simp [fpR, hl]
  · have := ident_obj hl; simp [fpW, this, ho, hl]
  · simp [fpW, hl]
  · simp [fpW, hl]
  · refine ⟨hop op h, ?_, ?_⟩
    · exact List.mem_map_of_mem h
    · simp only [Thread.uses, List.mem_append]; exact Or.inr (List.mem_map_of_mem h)

/-- Any number of threads, each executing assignments, additions, subtractions, multiplications (below 1793 limbs), sign changes and multiplications and divisions by numbers below the radix on objects; no object one thread changes is used by another
    (operands may be shared for reading), and each thread has its own temporary arrays. Then in every interleaving of their memory accesses:
    a thread that is finished sees in all objects it used exactly the result of executing its statements one after the other without the other threads;
    a thread is finished as soon as it was scheduled as many times as it needs alone; objects no thread changes keep their value;
    and there is no data race: never are a write and another access to the same location by two threads possible next steps. -/
theorem threads_sequential_partial (c : Cfg) (hN : c.N < 1793) (T : Nat → Thread) (m : Mem) (hop : ∀ i, ∀ op ∈ (T i).ops, op.ok c)
    (hown : ∀ i j, i ≠ j → ∀ o ∈ (T i).writes, o ∉ (T j).uses)
    (hscr : ∀ i j, ∀ o ∈ (T j).uses, o ≠ (T i).t ∧ o ≠ (T i).r)
    (hdis : ∀ i j, i ≠ j → (T i).t ≠ (T j).t ∧ (T i).t ≠ (T j).r ∧ (T i).r ≠ (T j).r)
    (hp : ∀ i, ∀ o ∈ (T i).uses, 1 ≤ (obj c m o).prec ∧ (obj c m o).prec ≤ c.N) (sched : List Nat) :
    let s := runS ⟨fun i => opsProg c (T i).t (T i).r (T i).ops, m⟩ sched
    (∀ i, s.threads i = done → ∀ o ∈ (T i).uses, obj c s.mem o = runAt c (obj c m) (T i).ops o) ∧
    (∀ i, steps (opsProg c (T i).t (T i).r (T i).ops) m ≤ sched.count i → s.threads i = done) ∧
    (∀ o, (∀ i, o ∉ (T i).writes ∧ o ≠ (T i).t ∧ o ≠ (T i).r) → obj c s.mem o = obj c m o) ∧
    (∀ i j, i ≠ j → ∀ l b, next (s.threads i) = some (l, true) → next (s.threads j) ≠ some (l, b)) := by
  intro s
  have hex : ∀ i, ∃ m', exec (fpR c (T i)) (fpW c (T i)) (opsProg c (T i).t (T i).r (T i).ops) m = some m' ∧
      ∀ o ∈ (T i).uses, obj c m' o = runAt c (obj c m) (T i).ops o := fun i => exec_thread c hN (T i) m (hop i) (fun o ho => hscr i i o ho) (hp i)
  choose res hres hobj using hex
  have hwu : ∀ i o, o ∈ (T i).writes → o ∈ (T i).uses := fun i o h => by simp only [Thread.writes, Thread.uses, List.mem_append] at *; exact Or.inl h
  -- identifiers separate the footprints
  have idW : ∀ i l, fpW c (T i) l = true → ident l ∈ (T i).writes ∨ ident l = (T i).t ∨ ident l = (T i).r := by
    intro i l h
    simp only [fpW, Bool.or_eq_true, Bool.and_eq_true, decide_eq_true_eq] at h
    rcases h with (h | h) | h
    · exact Or.inl h.1
    · exact Or.inr (Or.inl (ident_buf h))
    · exact Or.inr (Or.inr (ident_buf h))
  have idR : ∀ i l, fpR c (T i) l = true → ident l ∈ (T i).uses ∨ ident l = (T i).t ∨ ident l = (T i).r := by
    intro i l h
    simp only [fpR, Bool.or_eq_true, Bool.and_eq_true, decide_eq_true_eq] at h
    rcases h with (h | h) | h
    · exact Or.inl h.1
    · exact Or.inr (Or.inl (ident_buf h))
    · exact Or.inr (Or.inr (ident_buf h))
  have hd : ∀ i j, i ≠ j → ∀ l, fpW c (T i) l = true → fpR c (T j) l = false ∧ fpW c (T j) l = false := by
    intro i j hij l hl
    have key : ∀ n, (n ∈ (T i).writes ∨ n = (T i).t ∨ n = (T i).r) → (n ∈ (T j).uses ∨ n = (T j).t ∨ n = (T j).r) → False := by
      intro n h1 h2
      obtain ⟨d1, d2, d3⟩ := hdis i j hij
      obtain ⟨_, d5, _⟩ := hdis j i (Ne.symm hij)
      rcases h1 with h1 | h1 | h1 <;> rcases h2 with h2 | h2 | h2
      · exact hown i j hij n h1 h2
      · exact (hscr j i n (hwu i n h1)).1 h2
      · exact (hscr j i n (hwu i n h1)).2 h2
      · exact (hscr i j n h2).1 h1
      · exact d1 (h1.symm.trans h2)
      · exact d2 (h1.symm.trans h2)
      · exact (hscr i j n h2).2 h1
      · exact d5 (h2.symm.trans h1)
      · exact d3 (h1.symm.trans h2)
    constructor
    · by_contra hc
      exact key (ident l) (idW i l hl) (idR j l (by simpa using hc))
    · by_contra hc
      exact key (ident l) (idW i l hl) ((idW j l (by simpa using hc)).imp_left (hwu j _))
  obtain ⟨g1, g2, g3⟩ := isolation (fun i => fpR c (T i)) (fun i => fpW c (T i)) (fun i => opsProg c (T i).t (T i).r (T i).ops) m res hres hd sched
  refine ⟨fun i hi o ho => ?_, g2, fun o ho => ?_, fun i j hij l b => no_race (fun i => fpR c (T i)) (fun i => fpW c (T i)) _ m res hres hd sched i j hij l b⟩
  · rw [← hobj i o ho]
    refine obj_congr c fun l hl => g1 i hi l (Or.inl ?_)
    have := ident_obj hl; simp [fpR, this, ho, hl]
  · refine obj_congr c fun l hl => g3 l fun i => ?_
    have h1 := ident_obj hl
    obtain ⟨a1, a2, a3⟩ := ho i
    by_contra hc
    rcases idW i l (by simpa using hc) with h | h | h
    · exact a1 (h1 ▸ h)
    · exact a2 (h1 ▸ h)
    · exact a3 (h1 ▸ h)

/-- The results do not depend on what earlier operations left in the scratch memory: two memories with the same objects, whatever else they contain. Every access lies inside
    the N limbs (and the other members) of an object the thread uses, the N limbs of its temporary or the limbs of its product buffer (2N below 113 limbs, else 8 times
    the Karatsuba length of N; `mul_buffer_suffices` for each precision). -/
theorem scratch_independent_partial (c : Cfg) (hN : c.N < 1793) (T : Thread) (m m2 : Mem) (hop : ∀ op ∈ T.ops, op.ok c) (hs : ∀ o ∈ T.uses, o ≠ T.t ∧ o ≠ T.r)
    (hp : ∀ o ∈ T.uses, 1 ≤ (obj c m o).prec ∧ (obj c m o).prec ≤ c.N) (heq : ∀ o ∈ T.uses, obj c m2 o = obj c m o) :
    ∃ r r2, exec (fpR c T) (fpW c T) (opsProg c T.t T.r T.ops) m = some r ∧ exec (fpR c T) (fpW c T) (opsProg c T.t T.r T.ops) m2 = some r2 ∧
      ∀ o ∈ T.uses, obj c r2 o = obj c r o ∧ obj c r o = runAt c (obj c m) T.ops o := by
  have hu : ∀ op ∈ T.ops, op.ok c ∧ op.target ∈ T.writes ∧ op.operand ∈ T.uses := fun op h => ⟨hop op h, List.mem_map_of_mem h, by
    simp only [Thread.uses, List.mem_append]; exact Or.inr (List.mem_map_of_mem h)⟩
  have run : ∀ m1 : Mem, (∀ o ∈ T.uses, obj c m1 o = obj c m o) → ∃ r, exec (fpR c T) (fpW c T) (opsProg c T.t T.r T.ops) m1 = some r ∧
      ∀ o ∈ T.uses, obj c r o = runAt c (obj c m) T.ops o := fun m1 h1 =>
    exec_ops c (U := fun o => o ∈ T.uses) (T := fun o => o ∈ T.writes) hN hs (fun o h => by simp only [Thread.writes, Thread.uses, List.mem_append] at *; exact Or.inl h)
      (fun o l ho hl => by have := ident_obj hl; simp [fpR, this, ho, hl]) (fun l hl => by simp [fpR, hl]) (fun l hl => by simp [fpR, hl])
      (fun o l ho hl => by have := ident_obj hl; simp [fpW, this, ho, hl]) (fun l hl => by simp [fpW, hl]) (fun l hl => by simp [fpW, hl]) T.ops m1 (obj c m) hu
      (fun o ho => ⟨h1 o ho, hp o ho⟩)
  obtain ⟨r, r1, r2⟩ := run m fun _ _ => rfl
  obtain ⟨q, q1, q2⟩ := run m2 heq
  exact ⟨r, q, r1, q1, fun o ho => ⟨by rw [q2 o ho, r2 o ho], r2 o ho⟩⟩

/-- The multiplication of p limbs (schoolbook and Karatsuba), as the code runs it for operands of every precision: every single access of it lies inside the members of the two
    operands or inside the buffer that is allocated for p limbs, the operands may be one object, and it ends with the result of the model. -/
theorem mul_buffer_suffices (c : Cfg) (hN : c.N < 1793) (r u v p : Nat) (m : Mem) (hru : r ≠ u) (hrv : r ≠ v) (hp1 : 1 ≤ p) (hpN : p ≤ c.N) :
    ∃ m', exec (fun l => objL c.N u l || objL c.N v l || bufL (pool p) r l) (fun l => objL c.N u l || bufL (pool p) r l) (mulDispP c r u v p done) m = some m' ∧
      obj c m' u = DW.mulDispatch c p (obj c m u) (obj c m v) := by
  obtain ⟨m', h1, h2⟩ := wp_disp c (R0 := fun l => objL c.N u l || objL c.N v l || bufL (pool p) r l) (W0 := fun l => objL c.N u l || bufL (pool p) r l) (m := m)
    (P := fun m' => obj c m' u = DW.mulDispatch c p (obj c m u) (obj c m v)) hru hrv hp1 hpN hN (fun l h => by simp [h]) (fun l h => by simp [h]) (fun l h => by simp [h])
    (fun l h => by simp [h]) (fun l h => by simp [h]) fun _ h => h
  refine ⟨m', ?_, h2⟩
  rw [h1 _ _ done (fun _ h => h) (fun _ h => h)]; rfl

/-- A Karatsuba size: 1000 digits in 32-bit limbs, 128 limbs, a buffer of 1024 limbs. -/
def exKara : Cfg := { L := .u32, digits10 := 1000, maxExp := 2 ^ 59 }
example : exKara.N = 128 ∧ 113 ≤ exKara.N ∧ exKara.N < 1793 ∧ scr exKara = 1024 ∧ pool 113 = 1024 ∧ pool 112 = 224 ∧ pool 129 = 1280 := by decide

/-- Two threads on 5-limb objects: 0 += 1; 0 *= 1; 0 *= 7; 0 /= 3 and 2 += 3; 2 -= 1; -2; 3 = 1.0, operand 1 shared, scratch 10, 11 and 12, 13. -/
def exT (i : Nat) : Thread :=
  if i = 0 then ⟨[.add 0 1, .mul 0 1, .mulN 0 7, .divN 0 3], 10, 11⟩ else if i = 1 then ⟨[.add 2 3, .sub 2 1, .negate 2, .const 3 (DW.one exC)], 12, 13⟩ else ⟨[], 2 * i + 10, 2 * i + 11⟩

/-- Objects 0 … 3 hold 12.5, 3.25, 80 and 40. -/
def exM : Mem
  | limb 0 0 => 12 | limb 0 1 => 50 | limb 1 0 => 3 | limb 1 1 => 25 | limb 2 0 => 80 | limb 3 0 => 40
  | prec _ => 5
  | _ => 0

example : exC.N < 1793 ∧ (∀ i, ∀ op ∈ (exT i).ops, op.ok exC) ∧ (∀ i j, i ≠ j → ∀ o ∈ (exT i).writes, o ∉ (exT j).uses) ∧ (∀ i j, ∀ o ∈ (exT j).uses, o ≠ (exT i).t ∧ o ≠ (exT i).r) ∧
    (∀ i j, i ≠ j → (exT i).t ≠ (exT j).t ∧ (exT i).t ≠ (exT j).r ∧ (exT i).r ≠ (exT j).r) ∧
    (∀ i, ∀ o ∈ (exT i).uses, 1 ≤ (obj exC exM o).prec ∧ (obj exC exM o).prec ≤ exC.N) := by
  have e0 : exT 0 = ⟨[.add 0 1, .mul 0 1, .mulN 0 7, .divN 0 3], 10, 11⟩ := rfl
  have e1 : exT 1 = ⟨[.add 2 3, .sub 2 1, .negate 2, .const 3 (DW.one exC)], 12, 13⟩ := rfl
  have e2 : ∀ i, i ≠ 0 → i ≠ 1 → exT i = ⟨[], 2 * i + 10, 2 * i + 11⟩ := fun i h0 h1 => by simp [exT, h0, h1]
  have tr : ∀ i, (exT i).t = 2 * i + 10 ∧ (exT i).r = 2 * i + 11 := by
    intro i
    by_cases h0 : i = 0
    · subst h0; exact ⟨rfl, rfl⟩
    · by_cases h1 : i = 1
      · subst h1; exact ⟨rfl, rfl⟩
      · rw [e2 i h0 h1]; exact ⟨rfl, rfl⟩
  have us : ∀ i, ∀ o ∈ (exT i).uses, o < 4 := by
    intro i
    by_cases h0 : i = 0
    · subst h0; decide
    · by_cases h1 : i = 1
      · subst h1; decide
      · rw [e2 i h0 h1]; intro o ho; simp [Thread.uses] at ho
  have ow : ∀ i, ∀ o ∈ (exT i).writes, (i = 0 ∧ o = 0) ∨ (i = 1 ∧ (o = 2 ∨ o = 3)) := by
    intro i
    by_cases h0 : i = 0
    · subst h0; decide
    · by_cases h1 : i = 1
      · subst h1; decide
      · rw [e2 i h0 h1]; intro o ho; simp [Thread.writes] at ho
  have ou : ∀ i, ∀ o ∈ (exT i).uses, (i = 0 ∧ (o = 0 ∨ o = 1)) ∨ (i = 1 ∧ (o = 1 ∨ o = 2 ∨ o = 3)) := by
    intro i
    by_cases h0 : i = 0
    · subst h0; decide
    · by_cases h1 : i = 1
      · subst h1; decide
      · rw [e2 i h0 h1]; intro o ho; simp [Thread.uses] at ho
  have ok : ∀ i, ∀ op ∈ (exT i).ops, op.ok exC := by
    have hB : exC.B = 100 := by decide
    have h1 : (DW.one exC).data.length = exC.N ∧ 1 ≤ (DW.one exC).prec ∧ (DW.one exC).prec ≤ exC.N := by decide
    intro i op hop
    by_cases h0 : i = 0
    · subst h0; rw [e0] at hop; simp only [List.mem_cons, List.not_mem_nil, or_false] at hop
      rcases hop with rfl | rfl | rfl | rfl <;> simp [Op.ok, hB]
    · by_cases hi : i = 1
      · subst hi; rw [e1] at hop; simp only [List.mem_cons, List.not_mem_nil, or_false] at hop
        rcases hop with rfl | rfl | rfl | rfl
        · trivial
        · trivial
        · trivial
        · exact h1
      · rw [e2 i h0 hi] at hop; simp at hop
  refine ⟨by decide, ok, fun i j hij o ho hc => ?_, fun i j o ho => ?_, fun i j hij => ?_, fun i o ho => ?_⟩
  · have := ow i o ho; have := ou j o hc; omega
  · have := us j o ho; have := tr i; omega
  · have := tr i; have := tr j; omega
  · have : (obj exC exM o).prec = 5 := by rw [obj_eq]; simp [exM]
    rw [this]; decide

/-- With one scratch array for all threads an addition can go wrong although the objects are not shared: thread 0 computes 12.5 + 3.25, thread 1 computes 80 + 40 with the same
    temporary; in some schedule both threads finish and thread 0 has the sum 52.5. -/
theorem shared_scratch_wrong :
    ∃ sched : List Nat, let s := runS ⟨fun i => if i = 0 then opsProg exC 10 11 [.add 0 1] else if i = 1 then opsProg exC 10 13 [.add 2 3] else done, exM⟩ sched
      steps (s.threads 0) s.mem = 0 ∧ steps (s.threads 1) s.mem = 0 ∧
      (obj exC exM 0).val exC = 25 / 2 ∧ (obj exC exM 1).val exC = 13 / 4 ∧ (obj exC s.mem 0).val exC = 105 / 2 := by
  refine ⟨List.replicate 18 0 ++ List.replicate 60 1 ++ List.replicate 15 0, ?_⟩
  have e : obj exC (runS ⟨fun i => if i = 0 then opsProg exC 10 11 [.add 0 1] else if i = 1 then opsProg exC 10 13 [.add 2 3] else done, exM⟩
      (List.replicate 18 0 ++ List.replicate 60 1 ++ List.replicate 15 0)).mem 0 = { data := [52, 50, 0, 0, 0], exp := 0, neg := false, prec := 5 } := by decide +kernel
  have e0 : obj exC exM 0 = { data := [12, 50, 0, 0, 0], exp := 0, neg := false, prec := 5 } := by decide
  have e1 : obj exC exM 1 = { data := [3, 25, 0, 0, 0], exp := 0, neg := false, prec := 5 } := by decide
  have h1 : exC.N = 5 := by decide
  have h2 : exC.ed = 2 := by decide
  have h3 : exC.B = 100 := by decide
  refine ⟨by decide +kernel, by decide +kernel, ?_, ?_, ?_⟩
  · rw [e0]; simp only [DW.val, limbsVal, h1, h2, h3]; norm_num
  · rw [e1]; simp only [DW.val, limbsVal, h1, h2, h3]; norm_num
  · rw [e]; simp only [DW.val, limbsVal, h1, h2, h3]; norm_num

end Thr
end WD
