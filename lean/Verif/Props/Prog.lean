import Verif.Props.Alias
import Verif.Proofs.Closure2
import Verif.Proofs.Parse3
import Verif.Proofs.Pow
import Verif.Model.Prog
/-
  C10: the representation invariant over every program.
-/
namespace WD
open DW

theorem powLoop_closed {c : Cfg} (hok : MulOk c c.N) (hE : (c.ed : ℤ) ∣ c.maxExp) :
    ∀ (n p : ℕ) (r y : DW), p ≤ n → Full c r → Full c y → Full c (powLoop c p r y) := by
  intro n
  induction n with
  | zero =>
    intro p r y hp hr hy
    rw [powLoop]
    have : p = 0 := by omega
    subst this
    simpa using hr
  | succ n ih =>
    intro p r y hp hr hy
    rw [powLoop]
    have h1 : Full c (if p % 2 ≠ 0 then mulAssign c r y else r) := by
      split
      · exact mulAssign_closed hr hy hok hE
      · exact hr
    split
    · exact h1
    · next h => exact ih _ _ _ (by omega) h1 (mulAssign_closed hy hy hok hE)

theorem powNat_closed {c : Cfg} (hok : MulOk c c.N) (hE : (c.ed : ℤ) ∣ c.maxExp) {b : DW} (hb : Full c b) (p : ℕ) :
    Full c (powNat c b p) := by
  have h1 : Full c (ofUnsigned c 32 1) := (ofU32_one c).1
  have h2 := mulAssign_closed hb hb hok hE
  unfold powNat
  split
  · exact h1
  split
  · exact hb
  split
  · exact h2
  split
  · exact mulAssign_closed h2 hb hok hE
  split
  · exact mulAssign_closed h2 h2 hok hE
  · exact powLoop_closed hok hE p p _ _ (le_refl _) h1 hb

/-- C10 (partial: no `precision()` and no construction from floating point). Start from default-constructed objects and run
    any sequence of statements – arithmetic, division, powers, integers, parsed texts, with aliasing, overflow and division
    by zero, but without `precision()`: every object is well formed – N limbs below the radix, exponent a multiple of the
    limb digits, first limb zero only for zero – and has full precision. The floating-point start value of a division may be
    any well-formed object. -/
theorem every_program_keeps_invariant_partial (c : Cfg) (est : DW → DW) (fdig : Nat) (hok : MulOkAll c) (hg : c.ed ≤ c.digits10 + 4)
    (hE : (c.ed : ℤ) ∣ c.maxExp) (he : EstWF c est) (prog : List Stmt) (hp : ∀ s ∈ prog, s.ok) :
    ∀ i, Full c (run c est fdig (fun _ => dflt c) prog i) := by
  have hokN : MulOk c c.N := hok.ok (by have := c.three_le_N; omega) (le_refl _)
  have step : ∀ (st : Store) (s : Stmt), s.ok → (∀ i, Full c (st i)) → ∀ i, Full c (exec c est fdig st s i) := by
    intro st s hs hst i
    have hupd : ∀ (a : Nat) (x : DW), Full c x → Full c (upd st a x i) := by
      intro a x hx
      unfold upd
      split
      · exact hx
      · exact hst i
    have hadd : ∀ (st : Store), (∀ i, Full c (st i)) → ∀ a b i, Full c (addAt c st a b i) := by
      intro st hst a b i
      by_cases hab : b = a
      · subst hab; rw [addAt_self]; unfold upd; split
        · exact addAssign_full (hst _) (hst _)
        · exact hst i
      · rw [addAt_eq c st hab]; unfold upd; split
        · exact addAssign_full (hst _) (hst _)
        · exact hst i
    have hneg : ∀ (st : Store), (∀ i, Full c (st i)) → ∀ a i, Full c (negAt st a i) := by
      intro st hst a i
      unfold negAt upd; split
      · exact negate_full (hst a)
      · exact hst i
    have h64 : ∀ {n : Nat}, n < 2 ^ 64 → Full c (ofUnsigned c 64 n) := by
      intro n hn; rw [ofUnsigned64]; exact (fromULL_spec c n hn false).1
    have hmag : ∀ {n : ℤ}, -(2 ^ 63) ≤ n → n < 2 ^ 63 → (n < 0 → negULL (castULL n) < 2 ^ 64) ∧ (0 ≤ n → castULL n < 2 ^ 64) := by
      intro n h1 h2
      refine ⟨fun h => ?_, fun h => ?_⟩
      · rw [negULL_cast h h1]; omega
      · rw [castULL_nonneg h (by omega)]; omega
    have haddI : ∀ (a : Nat) (n : ℤ), -(2 ^ 63) ≤ n → n < 2 ^ 63 → Full c (addSLL c (st a) n) := by
      intro a n h1 h2
      have := hmag h1 h2
      unfold addSLL; split
      · next h => exact negate_full (addAssign_full (negate_full (hst a)) (h64 (this.1 h)))
      · next h => exact addAssign_full (hst a) (h64 (this.2 (by omega)))
    cases s with
    | clear a => exact hupd _ _ (dflt_full c)
    | setU a n => exact hupd _ _ (h64 hs)
    | setS a n => exact hupd _ _ (ofSigned_spec c n hs.1 hs.2).1
    | copy a b => exact hupd _ _ (hst b)
    | add a b => exact hadd st hst a b i
    | sub a b => exact hneg _ (hadd _ (hneg st hst a) a b) a i
    | mul a b =>
      show Full c (mulAt c st a b i)
      by_cases hab : b = a
      · subst hab
        rcases Bool.dichotomy (st b).isZero with hz | hz
        · rw [mulAt_self c st b hz]; exact hupd _ _ (mulAssign_closed (hst _) (hst _) hokN hE)
        · by_cases hM : 0 < c.maxExp
          · by_cases hi : i = b
            · subst hi; exact (mulAt_self_zero c st i hokN hM hz).2
            · have : mulAt c st b b i = st i := by
                unfold mulAt assignAt
                simp only [hz]
                repeat' split
                all_goals simp [upd, hi]
              rw [this]; exact hst i
          · by_cases hi : i = b
            · subst hi
              have hz0 := zero_isZero c
              have h1 : isOneSN c { zero c with neg := false } = false := isOneSN_zero c _ hz0
              unfold mulAt
              simp only [hz, or_self, if_true, dupd_same, dupd_upd, h1, Bool.false_eq_true, if_false]
              have h0 : c.maxExp = 0 := by omega
              rw [if_pos (by rw [h0]; simp [zero, fromLst]), dupd_same]
              exact setNeg_full (maxVal_full c hE) _
            · have : mulAt c st b b i = st i := by
                unfold mulAt assignAt
                simp only [hz]
                repeat' split
                all_goals simp [upd, hi]
              rw [this]; exact hst i
      · rw [mulAt_eq c st hab]; exact hupd _ _ (mulAssign_closed (hst _) (hst _) hokN hE)
    | neg a => exact hneg st hst a i
    | fabs a =>
      refine hupd _ _ ?_
      unfold DW.fabs; split
      · exact negate_full (hst a)
      · exact hst a
    | incr a => exact hupd _ _ (addAssign_full (hst a) (one_full c))
    | decr a => exact hupd _ _ (subAssign_full (hst a) (one_full c))
    | addI a n => exact hupd _ _ (haddI _ _ hs.1 hs.2)
    | mulU a n => exact hupd _ _ (mulULL_closed (hst a) hs hokN hE)
    | mulI a n =>
      refine hupd _ _ ?_
      have := hmag hs.1 hs.2
      unfold mulSLL; dsimp only
      split
      · next h => exact negate_full (mulULL_closed (hst a) (this.1 h) hokN hE)
      · next h => exact mulULL_closed (hst a) (this.2 (by omega)) hokN hE
    | divU a n => exact hupd _ _ (divULL_closed_all hok hE he (hst a) hs)
    | divI a n =>
      refine hupd _ _ ?_
      have := hmag hs.1 hs.2
      unfold divSLL; dsimp only
      split
      · next h => exact negate_full (divULL_closed_all hok hE he (hst a) (this.1 h))
      · next h => exact divULL_closed_all hok hE he (hst a) (this.2 (by omega))
    | subI a n =>
      refine hupd _ _ ?_
      unfold subSLL
      rw [if_neg (by have := hs.1; omega), Option.getD_some]
      exact haddI _ _ (by have := hs.2; omega) (by have := hs.1; omega)
    | parse a s =>
      refine hupd _ _ ?_
      obtain ⟨t, ht, rfl, h1, h2⟩ := hs
      rcases rdString_spec c c.N t ht h1 h2 (by have := c.three_le_N; omega) (le_refl _) with ⟨-, h⟩ | ⟨-, h3, h4, -⟩
      · unfold ofString; rw [h]; exact zero_WF c
      · exact ⟨h3, h4⟩
    | inv a => exact hupd _ _ (calcInv_closed hok hE he (hst a))
    | pow a b p =>
      refine hupd _ _ ?_
      unfold DW.pow
      rw [if_neg (by have := hs.1; omega)]
      split
      · exact calcInv_closed hok hE he (powNat_closed hokN hE (hst b) _)
      · exact powNat_closed hokN hE (hst b) _
    | div a b =>
      show Full c (divAt c est fdig st a b (a + b + 1) i)
      by_cases hab : b = a
      · subst hab; rw [divAt_self]; exact hupd _ _ (one_full c)
      · rw [divAt_eq c est fdig st hab (by omega)]; exact hupd _ _ (divAssign_closed hok hE he (hst a) (hst b))
    | floor a => exact hupd _ _ (floor_closed (hst a) hg).1
    | ceil a => exact hupd _ _ (floor_closed (hst a) hg).2
    | intPart a => exact hupd _ _ (integerPart_closed (hst a))
    | swap a b =>
      show Full c (swapAt st a b i)
      unfold swapAt
      split
      · dsimp only; unfold upd assignAt upd
        split
        · exact hst a
        · split
          · exact hst b
          · exact hst i
      · exact hst i
  have gen : ∀ (prog : List Stmt) (st : Store), (∀ s ∈ prog, s.ok) → (∀ i, Full c (st i)) →
      ∀ i, Full c (run c est fdig st prog i) := by
    intro prog
    induction prog with
    | nil => intro st _ h; exact h
    | cons s ss ih =>
      intro st hp h
      exact ih _ (fun t ht => hp t (List.mem_cons_of_mem _ ht)) (step st s (hp s (List.mem_cons_self ..)) h)
  exact gen prog _ hp (fun _ => dflt_full c)

/-- Non-vacuity: the hypotheses hold for a configuration, and a program with carries, products and aliasing runs. -/
example : MulOkAll exC ∧ exC.ed ≤ exC.digits10 + 4 ∧ (exC.ed : ℤ) ∣ exC.maxExp ∧
    run exC id 15 (fun _ => dflt exC) [.setU 0 123456789, .setS 1 (-77), .mul 0 1, .add 0 0, .divU 0 13, .sub 1 1] 0 =
      { data := [14, 62, 48, 48, 15], exp := 8, neg := true, prec := 5 } := by decide +kernel

/-- Non-vacuity for the remaining hypotheses: an estimate that is always well formed, and a program with a parsed text, a
    quotient of aliased objects and a power whose statements are all admissible. -/
example : EstWF exC (fun _ => half exC) ∧
    (∀ s ∈ [Stmt.parse 0 "-1.25e3".toList, .pow 1 0 3, .div 0 1, .div 1 1, .divI 0 (-300), .inv 1, .subI 1 7], s.ok) := by
  refine ⟨fun x _ _ => (by decide : WF exC (half exC)), ?_⟩
  intro s hs
  simp only [List.mem_cons, List.not_mem_nil, or_false] at hs
  rcases hs with rfl | rfl | rfl | rfl | rfl | rfl | rfl
  · refine ⟨⟨some true, "1".toList, some "25".toList, some (false, none, "3".toList)⟩, ⟨by decide, by decide, by decide, ?_⟩, by decide, by decide, by decide⟩
    intro up s d h
    simp only [Option.some.injEq, Prod.mk.injEq] at h
    obtain ⟨-, -, rfl⟩ := h
    decide
  all_goals first | trivial | (constructor <;> decide)

end WD
