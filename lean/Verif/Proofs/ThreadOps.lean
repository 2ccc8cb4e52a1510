import Verif.Proofs.ThreadMul
import Verif.Proofs.ThreadInt
import Verif.Spec.Thread
/-
  Sequences of statements, and their footprints.
-/
namespace WD
namespace Thr
open Prog Loc

variable (c : Cfg)

theorem mulAt_congr {st st' : DW.Store} {u v : Nat} (hu : st u = st' u) (hv : st v = st' v) : DW.mulAt c st u v u = DW.mulAt c st' u v u := by
  by_cases h : v = u
  · subst h
    unfold DW.mulAt DW.assignAt
    simp only [dupd_same, hu]
    by_cases hz : (st' v).isZero = true ∨ (st' v).isZero = true
    · simp only [if_pos hz, dupd_same]
      repeat' split
      all_goals simp only [dupd_same]
    · simp only [if_neg hz, dupd_same, hu]
      repeat' split
      all_goals simp only [dupd_same]
  · rw [mulAt_eq c st h, mulAt_eq c st' h, dupd_same, dupd_same, hu, hv]

theorem stepAt_congr {st st' : DW.Store} {op : Op} (hu : st op.target = st' op.target) (hv : st op.operand = st' op.operand) :
    stepAt c st op op.target = stepAt c st' op op.target := by
  cases op with
  | assign u v => simp only [stepAt, Op.target, DW.assignAt, dupd_same]; exact hv
  | add u v => simp only [stepAt, Op.target] at *; rw [addAt_at, addAt_at, hu]; simp only [Op.operand] at hv; rw [hv]
  | sub u v =>
    simp only [stepAt, Op.target, Op.operand] at *
    unfold DW.subAt
    have key : ∀ s : DW.Store, DW.negAt (DW.addAt c (DW.negAt s u) u v) u u = (DW.addAssign c (s u).negate (DW.upd s u (s u).negate v)).negate := by
      intro s
      rw [← show DW.negAt s u u = (s u).negate by unfold DW.negAt; rw [dupd_same]]
      rw [show DW.upd s u (DW.negAt s u u) v = DW.negAt s u v by unfold DW.negAt; rw [dupd_same]]
      rw [← addAt_at]
      generalize DW.addAt c (DW.negAt s u) u v = s2
      unfold DW.negAt; rw [dupd_same]
    rw [key, key, hu]
    have : DW.upd st u (st' u).negate v = DW.upd st' u (st' u).negate v := by
      unfold DW.upd; split
      · rfl
      · exact hv
    rw [this]
  | mul u v => exact mulAt_congr c hu hv
  | negate u => simp only [stepAt, Op.target, DW.negAt, dupd_same] at *; rw [hu]
  | const u x => simp only [stepAt, Op.target, dupd_same]
  | mulN u n => simp only [stepAt, Op.target, dupd_same] at *; rw [hu]
  | divN u n => simp only [stepAt, Op.target, dupd_same] at *; rw [hu]

theorem stepAt_other {st : DW.Store} {op : Op} {o : Nat} (h : o ≠ op.target) : stepAt c st op o = st o := by
  have hadd : ∀ (st : DW.Store) u v o, o ≠ u → DW.addAt c st u v o = st o := by
    intro st u v o h
    by_cases e : v = u
    · subst e; rw [addAt_self, dupd_ne _ h]
    · rw [addAt_eq c st e, dupd_ne _ h]
  cases op with
  | assign u v => exact dupd_ne _ h _
  | add u v => exact hadd st u v o h
  | sub u v =>
    simp only [stepAt, Op.target] at *
    unfold DW.subAt DW.negAt
    rw [dupd_ne _ h, hadd _ _ _ _ h, dupd_ne _ h]
  | mul u v =>
    simp only [stepAt, Op.target] at *
    unfold DW.mulAt DW.assignAt
    dsimp only
    rw [dupd_ne _ h]
    split
    · split
      · rw [dupd_ne _ h, dupd_ne _ h, dupd_ne _ h]
      · split
        · rw [dupd_ne _ h, dupd_ne _ h]
        · split
          · rw [dupd_ne _ h, dupd_ne _ h, dupd_ne _ h]
          · split
            · rw [dupd_ne _ h, dupd_ne _ h, dupd_ne _ h]
            · rw [dupd_ne _ h, dupd_ne _ h, dupd_ne _ h, dupd_ne _ h]
    · split
      · rw [dupd_ne _ h, dupd_ne _ h]
      · split
        · rw [dupd_ne _ h]
        · split
          · rw [dupd_ne _ h, dupd_ne _ h]
          · split
            · rw [dupd_ne _ h, dupd_ne _ h]
            · rw [dupd_ne _ h, dupd_ne _ h, dupd_ne _ h]
  | negate u => exact dupd_ne _ h _
  | const u x => exact dupd_ne _ h _
  | mulN u n => exact dupd_ne _ h _
  | divN u n => exact dupd_ne _ h _

/-- A working precision of at least one and at most N limbs. -/
def PrecOk (x : DW) : Prop := 1 ≤ x.prec ∧ x.prec ≤ c.N

theorem precOk_zero : PrecOk c (DW.zero c) := ⟨N_pos c, Nat.le_refl _⟩

theorem precOk_add {x y : DW} (hx : PrecOk c x) (hy : PrecOk c y) : PrecOk c (DW.addAssign c x y) := by
  have hj : ∀ p w, PrecOk c w → PrecOk c (DW.justify c p w) := by
    intro p w hw
    unfold DW.justify
    dsimp only
    repeat' split
    all_goals first | exact hw | exact precOk_zero c
  unfold DW.addAssign
  split
  · exact hy
  · dsimp only
    split
    · exact hx
    · split
      · exact hy
      · split
        · unfold DW.addSame; dsimp only; repeat' split
          all_goals exact hx
        · unfold DW.addOpp; dsimp only
          apply hj
          repeat' split
          all_goals exact hx

theorem precOk_neg {x : DW} (hx : PrecOk c x) : PrecOk c x.negate := by
  unfold DW.negate; split <;> exact hx

theorem precOk_disp {p : Nat} {x y : DW} (hx : PrecOk c x) : PrecOk c (DW.mulDispatch c p x y) := by
  unfold DW.mulDispatch
  dsimp only
  repeat' split
  all_goals exact hx

theorem precOk_mulN {x : DW} {n : Nat} (hn : n < c.B) (hx : PrecOk c x) : PrecOk c (DW.mulULL c x n) := by
  unfold DW.mulULL
  dsimp only
  repeat' split
  all_goals first | exact hx | exact precOk_zero c | exact ⟨N_pos c, Nat.le_refl _⟩ | exact precOk_neg c ⟨N_pos c, Nat.le_refl _⟩ | omega

theorem precOk_divN {x : DW} {n : Nat} (hn : n < c.B) (hx : PrecOk c x) : PrecOk c (DW.divULL c id 0 x n) := by
  unfold DW.divULL
  dsimp only
  repeat' split
  all_goals first | exact hx | exact precOk_zero c | omega

theorem precOk_step {st : DW.Store} {op : Op} (hop : op.ok c) (hu : PrecOk c (st op.target)) (hv : PrecOk c (st op.operand)) : PrecOk c (stepAt c st op op.target) := by
  cases op with
  | assign u v => simp only [stepAt, Op.target, DW.assignAt, dupd_same]; exact hv
  | add u v => simp only [stepAt, Op.target]; rw [addAt_at]; exact precOk_add c hu hv
  | sub u v =>
    simp only [stepAt, Op.target, Op.operand] at *
    have hn : ∀ o, PrecOk c (st o) → PrecOk c (DW.negAt st u o) := by
      intro o ho; unfold DW.negAt DW.upd; split
      · exact precOk_neg c hu
      · exact ho
    have h1 := precOk_add c (hn u hu) (hn v hv)
    rw [← addAt_at] at h1
    unfold DW.subAt
    generalize DW.addAt c (DW.negAt st u) u v = s at *
    unfold DW.negAt; rw [dupd_same]; exact precOk_neg c h1
  | mul u v =>
    simp only [stepAt, Op.target, Op.operand] at *
    unfold DW.mulAt DW.assignAt
    dsimp only
    rw [dupd_same]
    have h1 : ∀ o, PrecOk c (st o) → PrecOk c ((if (st u).isZero = true ∨ (st v).isZero = true then DW.upd st u (DW.zero c) else st) o) := by
      intro o ho; split
      · unfold DW.upd; split
        · exact precOk_zero c
        · exact ho
      · exact ho
    have hu1 := h1 u hu
    have hv1 := h1 v hv
    clear h1
    generalize (if (st u).isZero = true ∨ (st v).isZero = true then DW.upd st u (DW.zero c) else st) = s1 at *
    have hu2 : PrecOk c (DW.upd s1 u { s1 u with neg := false } u) := by rw [dupd_same]; exact hu1
    have hv2 : PrecOk c (DW.upd s1 u { s1 u with neg := false } v) := by
      unfold DW.upd; split
      · exact hu1
      · exact hv1
    generalize DW.upd s1 u { s1 u with neg := false } = s2 at *
    have strip : ∀ (x : DW) b, PrecOk c x → PrecOk c { x with neg := b } := fun _ _ h => h
    apply strip
    split
    · rw [dupd_same]; exact hv2
    · split
      · exact hu2
      · split
        · rw [dupd_same]; exact ⟨N_pos c, Nat.le_refl _⟩
        · split
          · rw [dupd_same]; exact ⟨N_pos c, Nat.le_refl _⟩
          · rw [dupd_same, dupd_same]
            exact precOk_disp c (x := { s2 u with exp := (s2 u).exp + (s2 v).exp }) hu2
  | negate u => simp only [stepAt, Op.target, DW.negAt, dupd_same]; exact precOk_neg c hu
  | const u x => simp only [stepAt, Op.target, dupd_same]; exact hop.2
  | mulN u n => simp only [stepAt, Op.target, dupd_same]; exact precOk_mulN c hop hu
  | divN u n => simp only [stepAt, Op.target, dupd_same]; exact precOk_divN c hop hu

/-- The program of one statement. -/
def opP (t r : Nat) : Op → Prog → Prog
  | .assign u v => assignP c u v
  | .add u v => addProg c t u v
  | .sub u v => subProg c t u v
  | .mul u v => mulProg c r u v
  | .negate u => negP u
  | .const u x => constP u x
  | .mulN u n => mulNProg c u n
  | .divN u n => divNProg c u n

theorem opsProg_cons (t r : Nat) (op : Op) (ops : List Op) : opsProg c t r (op :: ops) = opP c t r op (opsProg c t r ops) := by
  cases op <;> rfl

/-- The locations a statement reads and writes. -/
def opR (t r u v : Nat) (l : Loc) : Bool := objL c.N u l || objL c.N v l || bufL c.N t l || bufL (scr c) r l
def opW (t r u : Nat) (l : Loc) : Bool := objL c.N u l || bufL c.N t l || bufL (scr c) r l

theorem wp_op {m : Mem} {t r : Nat} {op : Op} (hN : c.N < 1793) (hop : op.ok c) (h1 : op.target ≠ t ∧ op.target ≠ r) (h2 : op.operand ≠ t ∧ op.operand ≠ r)
    (pu : PrecOk c (obj c m op.target)) (pv : PrecOk c (obj c m op.operand)) :
    Wp (opR c t r op.target op.operand) (opW c t r op.target) (opP c t r op) m fun m' => obj c m' op.target = stepAt c (obj c m) op op.target := by
  cases op with
  | assign u v =>
    refine wp_assign c (fun l h => by simp [opR, Op.operand, h]) (fun l h => by simp [opW, Op.target, h]) fun m' h => ?_
    simp only [stepAt, Op.target, DW.assignAt, dupd_same]; exact h
  | add u v =>
    simp only [Op.target, Op.operand] at *
    refine ((wp_add_t c h1.1.symm h2.1.symm pu.2).wide (fun l h => ?_) (fun l h => ?_)).mono fun m' h => ?_
    · simp only [rdL, opR, Bool.or_eq_true] at *; tauto
    · simp only [wrL, opW, Bool.or_eq_true] at *; tauto
    · simp only [stepAt]; rw [addAt_at]; exact h
  | sub u v =>
    simp only [Op.target, Op.operand] at *
    refine ((wp_sub_t c h1.1.symm h2.1.symm pu.2).wide (fun l h => ?_) (fun l h => ?_))
    · simp only [rdL, opR, Bool.or_eq_true] at *; tauto
    · simp only [wrL, opW, Bool.or_eq_true] at *; tauto
  | mul u v =>
    simp only [Op.target, Op.operand] at *
    refine ((wp_mul_t c h1.2.symm h2.2.symm hN pu pv.1).wide (fun l h => ?_) (fun l h => ?_))
    · simp only [mrdL, opR, Bool.or_eq_true] at *; tauto
    · simp only [mwrL, opW, Bool.or_eq_true] at *; tauto
  | negate u =>
    refine wp_neg c (fun l h => by simp [opR, Op.target, h]) (fun l h => by simp [opW, Op.target, h]) fun m' h _ => ?_
    simp only [stepAt, Op.target, DW.negAt, dupd_same]; exact h
  | const u x =>
    refine wp_const c hop.1 (fun l h => by simp [opW, Op.target, h]) fun m' h => ?_
    simp only [stepAt, Op.target, dupd_same]; exact h
  | mulN u n =>
    refine wp_mulN c hop (fun l h => by simp [opR, Op.target, h]) (fun l h => by simp [opW, Op.target, h]) pu fun m' h => ?_
    simp only [stepAt, Op.target, dupd_same]; exact h
  | divN u n =>
    refine wp_divN c (est := id) (fdig := 0) hop (fun l h => by simp [opR, Op.target, h]) (fun l h => by simp [opW, Op.target, h]) pu fun m' h => ?_
    simp only [stepAt, Op.target, dupd_same]; exact h

/-- Statements one after the other, alone: all accesses inside the footprint, and the objects hold the sequential result. -/
theorem exec_ops {R W : Loc → Bool} {t r : Nat} {U T : Nat → Prop} (hN : c.N < 1793) (hU : ∀ o, U o → o ≠ t ∧ o ≠ r) (hTU : ∀ o, T o → U o)
    (hR : ∀ o l, U o → objL c.N o l = true → R l = true) (hRt : ∀ l, bufL c.N t l = true → R l = true) (hRr : ∀ l, bufL (scr c) r l = true → R l = true)
    (hW : ∀ o l, T o → objL c.N o l = true → W l = true) (hWt : ∀ l, bufL c.N t l = true → W l = true) (hWr : ∀ l, bufL (scr c) r l = true → W l = true) :
    ∀ (ops : List Op) (m : Mem) (st : DW.Store), (∀ op ∈ ops, op.ok c ∧ T op.target ∧ U op.operand) → (∀ o, U o → obj c m o = st o ∧ PrecOk c (st o)) →
      ∃ m', exec R W (opsProg c t r ops) m = some m' ∧ ∀ o, U o → obj c m' o = runAt c st ops o
  | [], m, st, _, h => ⟨m, rfl, fun o ho => (h o ho).1⟩
  | op :: ops, m, st, hop, h => by
    obtain ⟨a0, a1, a2⟩ := hop op (by simp)
    have hu := h _ (hTU _ a1)
    have hv := h _ a2
    obtain ⟨m1, e1, e2⟩ := ((wp_op c hN a0 (hU _ (hTU _ a1)) (hU _ a2) (by rw [hu.1]; exact hu.2) (by rw [hv.1]; exact hv.2)).frame.wide (R1 := R) (W1 := W) (fun l hl => by
      simp only [opR, Bool.or_eq_true] at hl
      rcases hl with ((hl | hl) | hl) | hl
      · exact hR _ _ (hTU _ a1) hl
      · exact hR _ _ a2 hl
      · exact hRt _ hl
      · exact hRr _ hl) (fun l hl => by
      simp only [opW, Bool.or_eq_true] at hl
      rcases hl with (hl | hl) | hl
      · exact hW _ _ a1 hl
      · exact hWt _ hl
      · exact hWr _ hl))
    have key : ∀ o, U o → obj c m1 o = stepAt c st op o ∧ PrecOk c (stepAt c st op o) := by
      intro o ho
      by_cases ht : o = op.target
      · subst ht
        refine ⟨?_, precOk_step c a0 hu.2 hv.2⟩
        rw [e2.1]
        exact stepAt_congr c hu.1 hv.1
      · rw [stepAt_other c ht]
        refine ⟨?_, (h o ho).2⟩
        rw [← (h o ho).1]
        refine obj_congr c fun l hl => e2.2 l ?_
        simp only [opW, Bool.or_eq_false_iff]
        exact ⟨⟨objL_ne ht hl, objL_buf (hU o ho).1 hl⟩, objL_buf (hU o ho).2 hl⟩
    obtain ⟨m', g1, g2⟩ := exec_ops hN hU hTU hR hRt hRr hW hWt hWr ops m1 (stepAt c st op) (fun x hx => hop x (by simp [hx])) key
    refine ⟨m', ?_, g2⟩
    rw [opsProg_cons, e1 R W _ (fun _ h => h) (fun _ h => h)]
    exact g1

end Thr
end WD
