import Verif.Props.Prog
import Verif.Props.Start
/-
  C10 with the division the code performs: the start value is the floating-point computation `estInv`.
-/
namespace WD
open DW

/-- The number whose reciprocal a statement may compute. -/
def divisor (c : Cfg) (st : Store) : Stmt → Option DW
  | .div _ b => some (st b)
  | .divU _ n => some (ofUnsigned c 64 n)
  | .divI _ n => some (ofUnsigned c 64 (if n < 0 then negULL (castULL n) else castULL n))
  | .inv a => some (st a)
  | .pow _ b p => if p < 0 then some (powNat c (st b) (-p).toNat) else none
  | _ => none

section congr
variable {c : Cfg} {e1 e2 : DW → DW} {fdig : ℕ}

theorem calcInv_congr {x : DW} (h : x.isZero = false → e1 (unsigned x) = e2 (unsigned x)) :
    calcInv c e1 fdig x = calcInv c e2 fdig x := by
  unfold calcInv
  split
  · rfl
  · next hz =>
    have := h (by simpa using hz)
    unfold unsigned at this
    simp only [this]

theorem divAssign_congr {u v : DW} (h : v.isZero = false → e1 (unsigned v) = e2 (unsigned v)) :
    divAssign c e1 fdig u v = divAssign c e2 fdig u v := by
  unfold divAssign; rw [calcInv_congr h]

theorem divULL_congr {u : DW} {n : ℕ} (h : (ofUnsigned c 64 n).isZero = false → e1 (unsigned (ofUnsigned c 64 n)) = e2 (unsigned (ofUnsigned c 64 n))) :
    divULL c e1 fdig u n = divULL c e2 fdig u n := by
  unfold divULL; rw [divAssign_congr h]

theorem exec_congr {st : Store} {s : Stmt} (h : ∀ v, divisor c st s = some v → v.isZero = false → e1 (unsigned v) = e2 (unsigned v)) :
    exec c e1 fdig st s = exec c e2 fdig st s := by
  cases s with
  | div a b =>
    have h' := h (st b) rfl
    by_cases hab : b = a
    · subst hab; simp only [exec, divAt_self]
    · simp only [exec]
      rw [divAt_eq c e1 fdig st hab (by omega), divAt_eq c e2 fdig st hab (by omega), divAssign_congr h']
  | divU a n => simp only [exec]; rw [divULL_congr (h _ rfl)]
  | divI a n => simp only [exec]; unfold divSLL; rw [divULL_congr (h _ rfl)]
  | inv a => simp only [exec]; rw [calcInv_congr (h _ rfl)]
  | pow a b p =>
    simp only [exec]
    unfold DW.pow
    split
    · rfl
    split
    · next hp => rw [calcInv_congr (h _ (by show (if p < 0 then _ else _) = _; rw [if_pos hp]))]
    · rfl
  | _ => rfl
end congr

/-- C10 (partial): start from default-constructed objects and run any sequence of statements – arithmetic, division, powers,
    integers, parsed texts, with aliasing, overflow and division by zero – with divisions started in a covered type (`FloatOk`) as the
    code does it. If no divisor that occurs lies just above a power of the limb radix, every object is well formed and has
    full precision. Missing: `precision()`, construction from floating point, and the divisors for which the claim is false
    (`inv_radix_power_malformed`). -/
theorem every_program_keeps_invariant_float_partial (c : Cfg) (F : Flt) (hF : FloatOk c F) (hK : digitLoops c F ≤ c.N)
    (hok : MulOkAll c) (hg : c.ed ≤ c.digits10 + 4) (hE : (c.ed : ℤ) ∣ c.maxExp) (prog : List Stmt) (hp : ∀ s ∈ prog, s.ok)
    (hd : ∀ pre s post, prog = pre ++ s :: post → ∀ v, divisor c (run c (estInv c F) F.digits10 (fun _ => dflt c) pre) s = some v →
      v.val c = 0 ∨ OffRadix c F |v.val c|) :
    ∀ i, Full c (run c (estInv c F) F.digits10 (fun _ => dflt c) prog i) := by
  classical
  -- an estimate that is always well formed and agrees with the code wherever that one is
  set e2 : DW → DW := fun x => if WF c (estInv c F x) then estInv c F x else one c with he2
  have hwf : EstWF c e2 := by
    intro x _ _
    rw [he2]
    show WF c (if WF c (estInv c F x) then estInv c F x else one c)
    split
    · next h => exact h
    · exact (one_full c).toWF
  have hmain := every_program_keeps_invariant_partial c e2 F.digits10 hok hg hE hwf
  suffices h : ∀ pre : List Stmt, (∃ post, prog = pre ++ post) →
      run c (estInv c F) F.digits10 (fun _ => dflt c) pre = run c e2 F.digits10 (fun _ => dflt c) pre by
    rw [h prog ⟨[], by simp⟩]
    exact hmain prog hp
  intro pre
  induction pre using List.reverseRecOn with
  | nil => intro _; rfl
  | append_singleton pre s ih =>
    rintro ⟨post, hpost⟩
    have ih' := ih ⟨s :: post, by rw [hpost]; simp⟩
    have hfull := hmain pre (fun t ht => hp t (by rw [hpost]; simp [ht]))
    unfold run at *
    rw [List.foldl_append, List.foldl_append, List.foldl_cons, List.foldl_cons, List.foldl_nil, List.foldl_nil]
    have hdv := hd pre s post (by rw [hpost]; simp)
    rw [ih'] at hdv ⊢
    refine exec_congr fun v hv hz => ?_
    have hsok := hp s (by rw [hpost]; simp)
    -- the divisor is well formed
    have h64 : ∀ {n : Nat}, n < 2 ^ 64 → Full c (ofUnsigned c 64 n) := by
      intro n hn; rw [ofUnsigned64]; exact (fromULL_spec c n hn false).1
    have hokN : MulOk c c.N := hok.ok (by have := c.three_le_N; omega) (le_refl _)
    have hvf : Full c v := by
      cases s with
      | div a b => simp only [divisor, Option.some.injEq] at hv; rw [← hv]; exact hfull b
      | divU a n => simp only [divisor, Option.some.injEq] at hv; rw [← hv]; exact h64 hsok
      | divI a n =>
        simp only [divisor, Option.some.injEq] at hv; rw [← hv]
        apply h64
        obtain ⟨h1, h2⟩ := hsok
        split
        · next h => rw [negULL_cast h h1]; omega
        · next h => rw [castULL_nonneg (by omega) (by omega)]; omega
      | inv a => simp only [divisor, Option.some.injEq] at hv; rw [← hv]; exact hfull a
      | pow a b p =>
        simp only [divisor] at hv
        split at hv
        · simp only [Option.some.injEq] at hv; rw [← hv]; exact powNat_closed hokN hE (hfull b) _
        · exact absurd hv (by simp)
      | _ => simp [divisor] at hv
    have hv0 : v.val c ≠ 0 := by
      intro h0
      have := hvf.toWF.isZero_iff.mpr h0
      rw [hz] at this; exact absurd this (by simp)
    rcases hdv v hv with h | h
    · exact absurd h hv0
    · have := (start_value_ok c F hF v hvf hv0 hK h).wf
      rw [he2]
      show estInv c F (unsigned v) = if _ then _ else _
      rw [if_pos this]

/-- Non-vacuity: a program with a quotient by 77 and a reciprocal of -77 meets the hypotheses (8-bit limbs, float). -/
example : ∃ prog : List Stmt, prog = [.setS 0 (-77), .setU 1 77, .div 1 0, .inv 0] ∧ (∀ s ∈ prog, s.ok) ∧ digitLoops exC exFloat ≤ exC.N ∧
    MulOkAll exC ∧ exC.ed ≤ exC.digits10 + 4 ∧ (exC.ed : ℤ) ∣ exC.maxExp ∧
    (∀ pre s post, prog = pre ++ s :: post → ∀ v, divisor exC (run exC (estInv exC exFloat) exFloat.digits10 (fun _ => dflt exC) pre) s = some v →
      v.val exC = 0 ∨ OffRadix exC exFloat |v.val exC|) := by
  refine ⟨_, rfl, ?_, by decide, by decide, by decide, by decide, ?_⟩
  · intro s hs
    simp only [List.mem_cons, List.not_mem_nil, or_false] at hs
    rcases hs with rfl | rfl | rfl | rfl
    all_goals first | trivial | (constructor <;> decide) | (show (77 : ℕ) < 2 ^ 64; norm_num)
  · have h77 : |(ofSigned exC (-77)).val exC| = 77 := by
      have h1 : exC.N = 5 := by decide
      have h2 : exC.ed = 2 := by decide
      have h3 : exC.B = 100 := by decide
      have : ofSigned exC (-77) = { data := [77, 0, 0, 0, 0], exp := 0, neg := true, prec := 5 } := by decide +kernel
      rw [this]
      simp only [DW.val, limbsVal, h1, h2, h3]; norm_num
    have hoff : OffRadix exC exFloat |(ofSigned exC (-77)).val exC| := by
      rw [h77]
      intro k ⟨a, b⟩
      have h3 : exC.B = 100 := by decide
      rw [h3] at a b
      push_cast at a b
      rcases le_or_gt k 0 with h | h
      · have : (100 : ℚ) ^ k ≤ 1 := by
          rw [← zpow_zero (100 : ℚ)]; exact zpow_le_zpow_right₀ (by norm_num) h
        rw [show exFloat.digits10 = 6 from rfl] at b
        norm_num at b
        linarith
      · have : (100 : ℚ) ^ (1 : ℤ) ≤ 100 ^ k := zpow_le_zpow_right₀ (by norm_num) (by omega)
        norm_num at this a
        linarith
    intro pre s post hpre v hv
    right
    rcases pre with _ | ⟨p1, pre⟩
    · simp only [List.nil_append, List.cons.injEq] at hpre
      rw [← hpre.1] at hv; simp [divisor] at hv
    rcases pre with _ | ⟨p2, pre⟩
    · simp only [List.cons_append, List.nil_append, List.cons.injEq] at hpre
      rw [← hpre.2.1] at hv; simp [divisor] at hv
    rcases pre with _ | ⟨p3, pre⟩
    · simp only [List.cons_append, List.nil_append, List.cons.injEq] at hpre
      obtain ⟨rfl, rfl, rfl, rfl⟩ := hpre
      simp only [divisor, run, List.foldl_cons, List.foldl_nil, exec, Option.some.injEq] at hv
      have : v = ofSigned exC (-77) := by rw [← hv]; rfl
      rw [this]; exact hoff
    rcases pre with _ | ⟨p4, pre⟩
    · simp only [List.cons_append, List.nil_append, List.cons.injEq] at hpre
      obtain ⟨rfl, rfl, rfl, rfl, rfl⟩ := hpre
      simp only [divisor, run, List.foldl_cons, List.foldl_nil, exec, Option.some.injEq] at hv
      rw [divAt_eq exC _ _ _ (by decide) (by decide)] at hv
      have : v = ofSigned exC (-77) := by rw [← hv]; rfl
      rw [this]; exact hoff
    · simp at hpre

end WD
