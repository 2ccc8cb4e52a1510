import Verif.Proofs.ThreadSchool
import Verif.Proofs.KaraAgr
import Verif.Props.Tables
/-
  The Karatsuba multiplication as a sequence of memory accesses.
-/
namespace WD
namespace Thr
open Prog Loc

/-- The array A as a memory of limb cells. -/
def pv (m : Mem) (A : Nat) : WD.Mem := fun i => (m (limb A i)).toNat

theorem pv_set (m : Mem) (A p x : Nat) : pv (m.set (limb A p) (x : Nat)) A = (pv m A).set p x := by
  funext i
  unfold pv Mem.set WD.Mem.set
  by_cases h : i = p
  · simp [h]
  · simp [h]

variable {R0 W0 : Loc → Bool} {P : Mem → Prop} {S A : Nat}

theorem Wp.addO {L : Limb} {r u v : Nat} {q : Nat → Prog → Prog} (hR : ∀ i, i < S → R0 (limb A i) = true) (hW : ∀ i, i < S → W0 (limb A i) = true) :
    ∀ (n carry : Nat) (m : Mem), u + n ≤ S → v + n ≤ S → r + n ≤ S →
    (∀ m', pv m' A = (addMem L r u v n (pv m A) carry).1 → Wp R0 W0 (q (addMem L r u v n (pv m A) carry).2) m' P) →
    Wp R0 W0 (fun k => addO L A r u v n carry fun cy => q cy k) m P
  | 0, carry, m, _, _, _, h => h m rfl
  | n + 1, carry, m, hu, hv, hr, h => by
    refine Wp.load (b := fun a k => Prog.load (limb A (v + n)) fun b => Prog.stor (limb A (r + n)) ((addStep L a.toNat b.toNat carry).1 : Nat) (Thr.addO L A r u v n (addStep L a.toNat b.toNat carry).2 fun cy => q cy k))
      (hR _ (by omega)) ?_
    refine Wp.load (b := fun b k => Prog.stor (limb A (r + n)) ((addStep L (m (limb A (u + n))).toNat b.toNat carry).1 : Nat) (Thr.addO L A r u v n (addStep L (m (limb A (u + n))).toNat b.toNat carry).2 fun cy => q cy k))
      (hR _ (by omega)) ?_
    refine Wp.stor (hW _ (by omega)) ?_
    refine Wp.addO hR hW n _ _ (by omega) (by omega) (by omega) fun m' hm' => ?_
    simp only [addMem] at h
    rw [pv_set] at hm' ⊢
    exact h m' hm'

theorem Wp.subO {L : Limb} {r u v : Nat} {q : Nat → Prog → Prog} (hR : ∀ i, i < S → R0 (limb A i) = true) (hW : ∀ i, i < S → W0 (limb A i) = true) :
    ∀ (n carry : Nat) (m : Mem), u + n ≤ S → v + n ≤ S → r + n ≤ S →
    (∀ m', pv m' A = (subMem L r u v n (pv m A) carry).1 → Wp R0 W0 (q (subMem L r u v n (pv m A) carry).2) m' P) →
    Wp R0 W0 (fun k => subO L A r u v n carry fun cy => q cy k) m P
  | 0, carry, m, _, _, _, h => h m rfl
  | n + 1, carry, m, hu, hv, hr, h => by
    refine Wp.load (b := fun a k => Prog.load (limb A (v + n)) fun b => Prog.stor (limb A (r + n)) ((subStep L a.toNat b.toNat carry).1 : Nat) (Thr.subO L A r u v n (subStep L a.toNat b.toNat carry).2 fun cy => q cy k))
      (hR _ (by omega)) ?_
    refine Wp.load (b := fun b k => Prog.stor (limb A (r + n)) ((subStep L (m (limb A (u + n))).toNat b.toNat carry).1 : Nat) (Thr.subO L A r u v n (subStep L (m (limb A (u + n))).toNat b.toNat carry).2 fun cy => q cy k))
      (hR _ (by omega)) ?_
    refine Wp.stor (hW _ (by omega)) ?_
    refine Wp.subO hR hW n _ _ (by omega) (by omega) (by omega) fun m' hm' => ?_
    simp only [subMem] at h
    rw [pv_set] at hm' ⊢
    exact h m' hm'

theorem Wp.cmpO {q : Int → Prog → Prog} {m : Mem} (hR : ∀ i, i < S → R0 (limb A i) = true) : ∀ (n a b : Nat), a + n ≤ S → b + n ≤ S →
    Wp R0 W0 (q (compareRanges (rd (pv m A) a n) (rd (pv m A) b n))) m P → Wp R0 W0 (fun k => cmpO A a b n fun r => q r k) m P
  | 0, a, b, _, _, h => h
  | n + 1, a, b, ha, hb, h => by
    refine Wp.load (b := fun x k => Prog.load (limb A b) fun y => if x.toNat ≠ y.toNat then q (if x.toNat > y.toNat then 1 else -1) k else Thr.cmpO A (a + 1) (b + 1) n fun r => q r k) (hR _ (by omega)) ?_
    refine Wp.load (b := fun y k => if (m (limb A a)).toNat ≠ y.toNat then q (if (m (limb A a)).toNat > y.toNat then 1 else -1) k else Thr.cmpO A (a + 1) (b + 1) n fun r => q r k) (hR _ (by omega)) ?_
    simp only [rd, pv] at h
    refine Wp.ite (fun hc => ?_) (fun hc => ?_)
    · simp only [compareRanges, if_pos hc] at h; exact h
    · simp only [compareRanges, if_neg hc] at h
      exact Wp.cmpO hR n (a + 1) (b + 1) (by omega) (by omega) h

theorem Wp.propCarryO {L : Limb} {t : Nat} {q : Prog → Prog} (hR : ∀ i, i < S → R0 (limb A i) = true) (hW : ∀ i, i < S → W0 (limb A i) = true) :
    ∀ (n carry : Nat) (m : Mem), t + n ≤ S → (∀ m', pv m' A = propCarry L t n (pv m A) carry → Wp R0 W0 q m' P) →
    Wp R0 W0 (fun k => propCarryO L A t n carry (q k)) m P
  | 0, carry, m, _, h => h m rfl
  | n + 1, carry, m, ht, h => by
    simp only [propCarry] at h
    simp only [Thr.propCarryO]
    refine Wp.ite (fun hc => ?_) (fun hc => ?_)
    · rw [if_pos hc] at h; exact h m rfl
    · rw [if_neg hc] at h
      refine Wp.load (b := fun x k => Prog.stor (limb A (t + n)) ((((x.toNat + 1) % L.W + L.W - (if (if (x.toNat + 1) % L.W ≥ L.mask then 1 else 0) ≠ 0 then L.mask else 0)) % L.W : Nat))
        (Thr.propCarryO L A t n (if (x.toNat + 1) % L.W ≥ L.mask then 1 else 0) (q k))) (hR _ (by omega)) (Wp.stor (hW _ (by omega)) ?_)
      refine Wp.propCarryO hR hW n _ _ (by omega) fun m' hm' => h m' ?_
      rw [hm', pv_set]; rfl

theorem Wp.propBorrowO {L : Limb} {t : Nat} {q : Prog → Prog} (hR : ∀ i, i < S → R0 (limb A i) = true) (hW : ∀ i, i < S → W0 (limb A i) = true) :
    ∀ (n borrow : Nat) (m : Mem), t + n ≤ S → (∀ m', pv m' A = propBorrow L t n (pv m A) borrow → Wp R0 W0 q m' P) →
    Wp R0 W0 (fun k => propBorrowO L A t n borrow (q k)) m P
  | 0, carry, m, _, h => h m rfl
  | n + 1, carry, m, ht, h => by
    simp only [propBorrow] at h
    simp only [Thr.propBorrowO]
    refine Wp.ite (fun hc => ?_) (fun hc => ?_)
    · rw [if_pos hc] at h; exact h m rfl
    · rw [if_neg hc] at h
      refine Wp.load (b := fun x k => if ((x.toNat : Int) - 1) < 0 then Prog.stor (limb A (t + n)) (((((x.toNat : Int) - 1 + L.mask) % L.W).toNat : Nat)) (Thr.propBorrowO L A t n 1 (q k))
        else Prog.stor (limb A (t + n)) (((((x.toNat : Int) - 1) % L.W).toNat : Nat)) (Thr.propBorrowO L A t n 0 (q k))) (hR _ (by omega)) ?_
      refine Wp.ite (fun h1 => ?_) (fun h1 => ?_)
      · rw [if_pos (show (pv m A (t + n) : Int) - 1 < 0 from h1)] at h
        refine Wp.stor (hW _ (by omega)) (Wp.propBorrowO hR hW n _ _ (by omega) fun m' hm' => h m' ?_)
        rw [hm', pv_set]; rfl
      · rw [if_neg (show ¬ ((pv m A (t + n) : Int) - 1 < 0) from h1)] at h
        refine Wp.stor (hW _ (by omega)) (Wp.propBorrowO hR hW n _ _ (by omega) fun m' hm' => h m' ?_)
        rw [hm', pv_set]; rfl

/-- Copying inside one array, disjoint ranges. -/
theorem Wp.copyO {q : Prog → Prog} (hR : ∀ i, i < S → R0 (limb A i) = true) (hW : ∀ i, i < S → W0 (limb A i) = true) :
    ∀ (n s d : Nat) (m : Mem), s + n ≤ S → d + n ≤ S → (s + n ≤ d ∨ d + n ≤ s) →
    (∀ m', pv m' A = (pv m A).store d (rd (pv m A) s n) → Wp R0 W0 q m' P) → Wp R0 W0 (fun k => Thr.copyF A s A d n (q k)) m P
  | 0, s, d, m, _, _, _, h => h m rfl
  | n + 1, s, d, m, h1, h2, h3, h => by
    refine Wp.load (b := fun v k => Prog.stor (limb A d) v (Thr.copyF A (s + 1) A (d + 1) n (q k))) (hR _ (by omega)) (Wp.stor (hW _ (by omega)) ?_)
    refine Wp.copyO hR hW n (s + 1) (d + 1) _ (by omega) (by omega) (by omega) fun m' hm' => h m' ?_
    have e : pv (m.set (limb A d) (m (limb A s))) A = (pv m A).set d (pv m A s) := by
      funext i
      unfold pv Mem.set WD.Mem.set
      by_cases hi : i = d
      · simp [hi]
      · simp [hi]
    rw [hm', e]
    simp only [rd, WD.Mem.store]
    congr 1
    exact rd_congr fun x h4 h5 => by unfold WD.Mem.set; rw [if_neg (by omega)]

/-- Copying from another array. -/
theorem Wp.copyI {q : Prog → Prog} {u : Nat} (hu : u ≠ A) (hW : ∀ i, i < S → W0 (limb A i) = true) :
    ∀ (n s d : Nat) (m : Mem), (∀ i, i < n → R0 (limb u (s + i)) = true) → d + n ≤ S →
    (∀ m', pv m' A = (pv m A).store d (arr m u s n) → (∀ l, bufL S A l = false → m' l = m l) → Wp R0 W0 q m' P) → Wp R0 W0 (fun k => Thr.copyF u s A d n (q k)) m P
  | 0, s, d, m, _, _, h => h m rfl fun _ _ => rfl
  | n + 1, s, d, m, h1, h2, h => by
    refine Wp.load (b := fun v k => Prog.stor (limb A d) v (Thr.copyF u (s + 1) A (d + 1) n (q k))) (h1 0 (by omega)) (Wp.stor (hW _ (by omega)) ?_)
    refine Wp.copyI hu hW n (s + 1) (d + 1) _ (fun i hi => by rw [show s + 1 + i = s + (i + 1) by omega]; exact h1 _ (by omega)) (by omega) fun m' hm' hf => h m' ?_ fun l hl => ?_
    · have e : pv (m.set (limb A d) (m (limb u s))) A = (pv m A).set d (m (limb u s)).toNat := by
        funext i
        unfold pv Mem.set WD.Mem.set
        by_cases hi : i = d
        · simp [hi]
        · simp [hi]
      rw [hm', e]
      simp only [arr, WD.Mem.store]
      congr 1
      exact arr_congr fun j _ => by simp [Mem.set, hu]
    · rw [hf l hl]
      have : ¬ (l = limb A d) := by intro e; subst e; simp [bufL] at hl; omega
      simp [Mem.set, this]

theorem Wp.fillI {q : Prog → Prog} (hW : ∀ i, i < S → W0 (limb A i) = true) : ∀ (n d : Nat) (m : Mem), d + n ≤ S →
    (∀ m', pv m' A = (pv m A).store d (List.replicate n 0) → (∀ l, bufL S A l = false → m' l = m l) → Wp R0 W0 q m' P) → Wp R0 W0 (fun k => Thr.fillZ A d n (q k)) m P
  | 0, d, m, _, h => h m rfl fun _ _ => rfl
  | n + 1, d, m, h1, h => by
    refine Wp.stor (hW _ (by omega)) ?_
    refine Wp.fillI hW n (d + 1) _ (by omega) fun m' hm' hf => h m' ?_ fun l hl => ?_
    · have := pv_set m A d 0
      simp only [Nat.cast_zero] at this
      rw [hm', this]; rfl
    · rw [hf l hl]
      have : ¬ (l = limb A d) := by intro e; subst e; simp [bufL] at hl; omega
      simp [Mem.set, this]

/-- A program with its pointers bound to other locations does there what it does on its own arrays, if no written location is bound to the same place as another location. -/
theorem exec_ren {R W R1 W1 : Loc → Bool} {f : Loc → Loc} (hR : ∀ l, R l = true → R1 (f l) = true) (hW : ∀ l, W l = true → W1 (f l) = true)
    (hinj : ∀ l l', W l = true → (R l' = true ∨ W l' = true) → f l' = f l → l' = l) (k : Prog) :
    ∀ (q : Prog) (m0 m0' m : Mem), exec R W q m0 = some m0' → (∀ l, (R l = true ∨ W l = true) → m (f l) = m0 l) →
      ∃ m', exec R1 W1 ((q.ren f).seq k) m = exec R1 W1 k m' ∧ (∀ l, (R l = true ∨ W l = true) → m' (f l) = m0' l) ∧ (∀ l, (∀ w, W w = true → f w ≠ l) → m' l = m l) := by
  intro q
  induction q with
  | done => intro m0 m0' m h hm; simp only [exec, Option.some.injEq] at h; subst h; exact ⟨m, rfl, hm, fun _ _ => rfl⟩
  | load l g ih =>
    intro m0 m0' m h hm
    simp only [exec] at h
    split at h
    · rename_i hl
      obtain ⟨m', h1, h2, h3⟩ := ih _ m0 m0' m h hm
      refine ⟨m', ?_, h2, h3⟩
      simp only [Prog.ren, Prog.seq, exec, if_pos (hR l hl)]
      rw [hm l (Or.inl hl)]
      exact h1
    · exact absurd h (by simp)
  | stor l v g ih =>
    intro m0 m0' m h hm
    simp only [exec] at h
    split at h
    · rename_i hl
      obtain ⟨m', h1, h2, h3⟩ := ih (m0.set l v) m0' (m.set (f l) v) h (fun l' hl' => by
        unfold Mem.set
        by_cases e : l' = l
        · simp [e]
        · rw [if_neg e, if_neg (fun e2 => e (hinj l l' hl hl' e2)), hm l' hl'])
      refine ⟨m', ?_, h2, fun l' hl' => ?_⟩
      · simp only [Prog.ren, Prog.seq, exec, if_pos (hW l hl)]
        exact h1
      · rw [h3 l' hl']
        unfold Mem.set
        rw [if_neg (fun e => hl' l hl e.symm)]
    · exact absurd h (by simp)

/-- The product of n by n limbs has 2n limbs. -/
theorem schoolLen (L : Limb) : SchoolLen L := by
  intro a b h0 hl
  have hcol : ∀ (L : Limb) (cs : List (List (Nat × Nat))) (carry : Nat) (acc : List Nat), (colLoop L a b cs carry acc).length = cs.length + 1 + acc.length := by
    intro L cs
    induction cs with
    | nil => intro carry acc; simp [colLoop]; omega
    | cons x xs ih => intro carry acc; simp only [colLoop]; rw [ih]; simp; omega
  cases L with
  | u8 => simp only [schoolMul]; rw [mulRows_len]; omega
  | u16 => simp only [schoolMul]; rw [hcol, columns_len h0]; simp
  | u32 => simp only [schoolMul]; rw [hcol, columns_len h0]; simp

theorem store_at (m : WD.Mem) : ∀ (l : List Nat) (p i : Nat), i < l.length → m.store p l (p + i) = l.getD i 0 := by
  intro l p i hi
  have h := rd_store m p l
  have e : (rd (m.store p l) p l.length).getD i 0 = (m.store p l) (p + i) := by
    have gen : ∀ (n p i : Nat) (m : WD.Mem), i < n → (rd m p n).getD i 0 = m (p + i) := by
      intro n
      induction n with
      | zero => intro p i m h; omega
      | succ n ih =>
        intro p i m h
        cases i with
        | zero => simp [rd]
        | succ i => simp only [rd, List.getD_cons_succ]; rw [ih _ _ _ (by omega)]; congr 1; omega
    exact gen _ _ _ _ hi
  rw [← e, h]

theorem Wp.schoolO {L : Limb} {r a b n : Nat} {m : Mem} {q : Prog → Prog} (hn : 1 ≤ n) (hR : ∀ i, i < S → R0 (limb A i) = true) (hW : ∀ i, i < S → W0 (limb A i) = true)
    (h1 : r + 2 * n ≤ S) (h2 : a + n ≤ S) (h3 : b + n ≤ S) (da : Disjoint2 r (2 * n) a n) (db : Disjoint2 r (2 * n) b n)
    (h : ∀ m', pv m' A = schoolMem L (pv m A) r a b n → Wp R0 W0 q m' P) : Wp R0 W0 (fun k => Thr.schoolO L A r a b n (q k)) m P := by
  unfold Disjoint2 at da db
  -- the routine on its own arrays 0, 1, 2
  let R : Loc → Bool := fun l => bufL (2 * n) 0 l || bufL n 1 l || bufL n 2 l
  let W : Loc → Bool := fun l => bufL (2 * n) 0 l
  let m0 : Mem := fun l => m (ptr3 A r a b l)
  obtain ⟨m0', e1, e2, e3⟩ : ∃ m0', exec R W (schoolP L 0 1 2 n done) m0 = some m0' ∧ arr m0' 0 0 (2 * n) = schoolMul L (arr m0 1 0 n) (arr m0 2 0 n) ∧
      (∀ l, bufL (2 * n) 0 l = false → m0' l = m0 l) := by
    obtain ⟨m0', g1, g2⟩ := Wp.school (R0 := R) (W0 := W) (L := L) (r := 0) (a := 1) (b := 2) (m := m0) (q := fun k => k)
      (P := fun m' => arr m' 0 0 (2 * n) = schoolMul L (arr m0 1 0 n) (arr m0 2 0 n) ∧ (∀ l, bufL (2 * n) 0 l = false → m' l = m0 l)) hn (by decide) (by decide)
      (fun j hj => by simp [R, bufL, hj]) (fun j hj => by simp [R, bufL, hj]) (fun j hj => by simp [R, bufL, hj]) (fun j hj => by simp [W, bufL, hj]) fun m' a b => Wp.fin ⟨a, b⟩
    refine ⟨m0', ?_, g2⟩
    rw [g1 R W done (fun _ h => h) (fun _ h => h)]; rfl
  have fW : ∀ l, W l = true → ∃ j, j < 2 * n ∧ l = limb 0 j := by
    intro l hl
    cases l with
    | limb x j => simp [W, bufL] at hl; exact ⟨j, hl.2, by rw [hl.1]⟩
    | _ => simp [W, bufL] at hl
  have fR : ∀ l, (R l = true ∨ W l = true) → (∃ j, j < 2 * n ∧ l = limb 0 j) ∨ (∃ j, j < n ∧ l = limb 1 j) ∨ (∃ j, j < n ∧ l = limb 2 j) := by
    intro l hl
    cases l with
    | limb x j =>
      simp [R, W, bufL] at hl
      rcases hl with ((hl | hl) | hl) | hl
      · exact Or.inl ⟨j, hl.2, by rw [hl.1]⟩
      · exact Or.inr (Or.inl ⟨j, hl.2, by rw [hl.1]⟩)
      · exact Or.inr (Or.inr ⟨j, hl.2, by rw [hl.1]⟩)
      · exact Or.inl ⟨j, hl.2, by rw [hl.1]⟩
    | _ => simp [R, W, bufL] at hl
  have key : ∀ R1 W1 : Loc → Bool, ∀ k, (∀ l, R0 l = true → R1 l = true) → (∀ l, W0 l = true → W1 l = true) → ∃ m', exec R1 W1 (Thr.schoolO L A r a b n k) m = exec R1 W1 k m' ∧
      (∀ l, (R l = true ∨ W l = true) → m' (ptr3 A r a b l) = m0' l) ∧ (∀ l, (∀ w, W w = true → ptr3 A r a b w ≠ l) → m' l = m l) := by
    intro R1 W1 k hR1 hW1
    refine exec_ren (R := R) (W := W) (fun l hl => ?_) (fun l hl => ?_) (fun l l' hl hl' e => ?_) k _ m0 m0' m e1 (fun _ _ => rfl)
    · rcases fR l (Or.inl hl) with ⟨j, hj, rfl⟩ | ⟨j, hj, rfl⟩ | ⟨j, hj, rfl⟩ <;> exact hR1 _ (hR _ (by omega))
    · obtain ⟨j, hj, rfl⟩ := fW l hl
      exact hW1 _ (hW _ (by omega))
    · obtain ⟨j, hj, rfl⟩ := fW l hl
      rcases fR l' hl' with ⟨i, hi, rfl⟩ | ⟨i, hi, rfl⟩ | ⟨i, hi, rfl⟩
      · simp only [ptr3, Loc.limb.injEq, true_and] at e; rw [show i = j by omega]
      · simp only [ptr3, Loc.limb.injEq, true_and] at e; omega
      · simp only [ptr3, Loc.limb.injEq, true_and] at e; omega
  -- the memory afterwards does not depend on the continuation
  let mm : Mem := fun l => match l with
    | limb x i => if x = A ∧ r ≤ i ∧ i < r + 2 * n then m0' (limb 0 (i - r)) else m (limb x i)
    | l => m l
  have huniq : ∀ m' : Mem, (∀ l, (R l = true ∨ W l = true) → m' (ptr3 A r a b l) = m0' l) → (∀ l, (∀ w, W w = true → ptr3 A r a b w ≠ l) → m' l = m l) → m' = mm := by
    intro m' g1 g2
    funext l
    cases l with
    | limb x i =>
      by_cases hc : x = A ∧ r ≤ i ∧ i < r + 2 * n
      · have : mm (limb x i) = m0' (limb 0 (i - r)) := if_pos hc
        rw [this]
        have g := g1 (limb 0 (i - r)) (Or.inr (by simp [W, bufL]; omega))
        simp only [ptr3] at g
        rw [← g, hc.1]; congr 2; omega
      · have : mm (limb x i) = m (limb x i) := if_neg hc
        rw [this]
        refine g2 _ fun w hw e => hc ?_
        obtain ⟨j, hj, rfl⟩ := fW w hw
        simp only [ptr3, Loc.limb.injEq] at e
        exact ⟨e.1.symm, by omega, by omega⟩
    | exp o => exact g2 _ fun w hw e => by obtain ⟨j, hj, rfl⟩ := fW w hw; simp [ptr3] at e
    | neg o => exact g2 _ fun w hw e => by obtain ⟨j, hj, rfl⟩ := fW w hw; simp [ptr3] at e
    | prec o => exact g2 _ fun w hw e => by obtain ⟨j, hj, rfl⟩ := fW w hw; simp [ptr3] at e
  have hpv : pv mm A = schoolMem L (pv m A) r a b n := by
    have ea : arr m0 1 0 n = rd (pv m A) a n := by
      have gen : ∀ n s, arr m0 1 s n = rd (pv m A) (a + s) n := by
        intro n
        induction n with
        | zero => intro s; rfl
        | succ n ih => intro s; simp only [arr, rd]; rw [ih]; rfl
      exact gen n 0
    have eb : arr m0 2 0 n = rd (pv m A) b n := by
      have gen : ∀ n s, arr m0 2 s n = rd (pv m A) (b + s) n := by
        intro n
        induction n with
        | zero => intro s; rfl
        | succ n ih => intro s; simp only [arr, rd]; rw [ih]; rfl
      exact gen n 0
    unfold schoolMem
    rw [← ea, ← eb, ← e2]
    funext i
    by_cases hc : r ≤ i ∧ i < r + 2 * n
    · obtain ⟨j, rfl⟩ : ∃ j, i = r + j := ⟨i - r, by omega⟩
      rw [store_at _ _ _ _ (by rw [arr_length]; omega), List.getD_eq_getElem?_getD, List.getElem?_eq_getElem (by rw [arr_length]; omega), Option.getD_some, arr_getElem]
      have : mm (limb A (r + j)) = m0' (limb 0 (r + j - r)) := if_pos ⟨rfl, hc⟩
      unfold pv
      rw [this]; congr 3; omega
    · rw [store_frame _ _ _ _ (by rw [arr_length]; omega)]
      have : mm (limb A i) = m (limb A i) := if_neg (fun h => hc h.2)
      unfold pv
      rw [this]
  obtain ⟨mf, f1, f2⟩ := h mm hpv
  refine ⟨mf, fun R1 W1 k hR1 hW1 => ?_, f2⟩
  obtain ⟨m', g1, g2, g3⟩ := key R1 W1 (q k) hR1 hW1
  rw [g1, huniq m' g2 g3]
  exact f1 R1 W1 k hR1 hW1

theorem Wp.karaP {L : Limb} (hR : ∀ i, i < S → R0 (limb A i) = true) (hW : ∀ i, i < S → W0 (limb A i) = true) {n : Nat} (hn : Halvable n) (h0 : 0 < n) :
    ∀ (P : Mem → Prop) (q : Prog → Prog) (r a b t : Nat) (m : Mem), r + 2 * n ≤ S → a + n ≤ S → b + n ≤ S → t + 4 * n ≤ S →
    Disjoint2 r (2 * n) a n → Disjoint2 r (2 * n) b n → Disjoint2 r (2 * n) t (4 * n) →
    (∀ m', pv m' A = kara L (pv m A) r a b n t → Wp R0 W0 q m' P) → Wp R0 W0 (fun k => Thr.karaP L A r a b n t (q k)) m P := by
  have base : ∀ {n : Nat}, 0 < n → n ≤ 32 → ∀ (P : Mem → Prop) (q : Prog → Prog) (r a b t : Nat) (m : Mem), r + 2 * n ≤ S → a + n ≤ S → b + n ≤ S → t + 4 * n ≤ S →
    Disjoint2 r (2 * n) a n → Disjoint2 r (2 * n) b n → Disjoint2 r (2 * n) t (4 * n) →
    (∀ m', pv m' A = kara L (pv m A) r a b n t → Wp R0 W0 q m' P) → Wp R0 W0 (fun k => Thr.karaP L A r a b n t (q k)) m P := by
    intro n h0 hle P q r a b t m h1 h2 h3 h4 da db dt h
    have e : (fun k => Thr.karaP L A r a b n t (q k)) = fun k => Thr.schoolO L A r a b n (q k) := by funext k; rw [Thr.karaP, dif_pos hle]
    rw [e]
    rw [kara, dif_pos hle] at h
    exact Wp.schoolO h0 hR hW h1 h2 h3 da db h
  induction hn with
  | base hle => exact base h0 hle
  | @dbl k _ ih =>
    by_cases hle : 2 * k ≤ 32
    · exact base h0 hle
    · have ih := ih (by omega)
      intro P q r a b t m h1 h2 h3 h4 da db dt h
      have e : (fun k' => Thr.karaP L A r a b (2 * k) t (q k')) = fun k' =>
          Thr.karaP L A r a b k t (Thr.karaP L A (r + 2 * k) (a + k) (b + k) k t (Thr.copyF A r A t (2 * k * 2)
          (Thr.addO L A (r + k) (r + k) t (2 * k) 0 fun c1 => Thr.propCarryO L A r k c1 (Thr.addO L A (r + k) (r + k) (t + 2 * k) (2 * k) 0 fun c2 => Thr.propCarryO L A r k c2
          (Thr.cmpO A a (a + k) k fun ca =>
            if ca = 1 then Thr.subO L A t a (a + k) k 0 fun _ => Thr.cmpO A (b + k) b k fun cb =>
              if cb = 1 then Thr.subO L A (t + k) (b + k) b k 0 fun _ => Thr.karaP L A (t + 2 * k) t (t + k) k (t + (2 * k + 2 * k))
                (if ca * cb = 1 then Thr.addO L A (r + k) (r + k) (t + 2 * k) (2 * k) 0 fun c3 => Thr.propCarryO L A r k c3 (q k')
                else if ca * cb = -1 then Thr.subO L A (r + k) (r + k) (t + 2 * k) (2 * k) 0 fun c3 => Thr.propBorrowO L A r k c3 (q k')
                else q k')
              else if cb = -1 then Thr.subO L A (t + k) b (b + k) k 0 fun _ => Thr.karaP L A (t + 2 * k) t (t + k) k (t + (2 * k + 2 * k))
                (if ca * cb = 1 then Thr.addO L A (r + k) (r + k) (t + 2 * k) (2 * k) 0 fun c3 => Thr.propCarryO L A r k c3 (q k')
                else if ca * cb = -1 then Thr.subO L A (r + k) (r + k) (t + 2 * k) (2 * k) 0 fun c3 => Thr.propBorrowO L A r k c3 (q k')
                else q k')
              else Thr.karaP L A (t + 2 * k) t (t + k) k (t + (2 * k + 2 * k))
                (if ca * cb = 1 then Thr.addO L A (r + k) (r + k) (t + 2 * k) (2 * k) 0 fun c3 => Thr.propCarryO L A r k c3 (q k')
                else if ca * cb = -1 then Thr.subO L A (r + k) (r + k) (t + 2 * k) (2 * k) 0 fun c3 => Thr.propBorrowO L A r k c3 (q k')
                else q k')
            else if ca = -1 then Thr.subO L A t (a + k) a k 0 fun _ => Thr.cmpO A (b + k) b k fun cb =>
              if cb = 1 then Thr.subO L A (t + k) (b + k) b k 0 fun _ => Thr.karaP L A (t + 2 * k) t (t + k) k (t + (2 * k + 2 * k))
                (if ca * cb = 1 then Thr.addO L A (r + k) (r + k) (t + 2 * k) (2 * k) 0 fun c3 => Thr.propCarryO L A r k c3 (q k')
                else if ca * cb = -1 then Thr.subO L A (r + k) (r + k) (t + 2 * k) (2 * k) 0 fun c3 => Thr.propBorrowO L A r k c3 (q k')
                else q k')
              else if cb = -1 then Thr.subO L A (t + k) b (b + k) k 0 fun _ => Thr.karaP L A (t + 2 * k) t (t + k) k (t + (2 * k + 2 * k))
                (if ca * cb = 1 then Thr.addO L A (r + k) (r + k) (t + 2 * k) (2 * k) 0 fun c3 => Thr.propCarryO L A r k c3 (q k')
                else if ca * cb = -1 then Thr.subO L A (r + k) (r + k) (t + 2 * k) (2 * k) 0 fun c3 => Thr.propBorrowO L A r k c3 (q k')
                else q k')
              else Thr.karaP L A (t + 2 * k) t (t + k) k (t + (2 * k + 2 * k))
                (if ca * cb = 1 then Thr.addO L A (r + k) (r + k) (t + 2 * k) (2 * k) 0 fun c3 => Thr.propCarryO L A r k c3 (q k')
                else if ca * cb = -1 then Thr.subO L A (r + k) (r + k) (t + 2 * k) (2 * k) 0 fun c3 => Thr.propBorrowO L A r k c3 (q k')
                else q k')
            else Thr.cmpO A (b + k) b k fun cb =>
              if cb = 1 then Thr.subO L A (t + k) (b + k) b k 0 fun _ => Thr.karaP L A (t + 2 * k) t (t + k) k (t + (2 * k + 2 * k))
                (if ca * cb = 1 then Thr.addO L A (r + k) (r + k) (t + 2 * k) (2 * k) 0 fun c3 => Thr.propCarryO L A r k c3 (q k')
                else if ca * cb = -1 then Thr.subO L A (r + k) (r + k) (t + 2 * k) (2 * k) 0 fun c3 => Thr.propBorrowO L A r k c3 (q k')
                else q k')
              else if cb = -1 then Thr.subO L A (t + k) b (b + k) k 0 fun _ => Thr.karaP L A (t + 2 * k) t (t + k) k (t + (2 * k + 2 * k))
                (if ca * cb = 1 then Thr.addO L A (r + k) (r + k) (t + 2 * k) (2 * k) 0 fun c3 => Thr.propCarryO L A r k c3 (q k')
                else if ca * cb = -1 then Thr.subO L A (r + k) (r + k) (t + 2 * k) (2 * k) 0 fun c3 => Thr.propBorrowO L A r k c3 (q k')
                else q k')
              else Thr.karaP L A (t + 2 * k) t (t + k) k (t + (2 * k + 2 * k))
                (if ca * cb = 1 then Thr.addO L A (r + k) (r + k) (t + 2 * k) (2 * k) 0 fun c3 => Thr.propCarryO L A r k c3 (q k')
                else if ca * cb = -1 then Thr.subO L A (r + k) (r + k) (t + 2 * k) (2 * k) 0 fun c3 => Thr.propBorrowO L A r k c3 (q k')
                else q k')))))) := by
        funext k'
        rw [Thr.karaP, dif_neg hle]
        rw [show 2 * k / 2 = k by omega]
      rw [e]
      clear e
      rw [kara, dif_neg hle] at h
      rw [show 2 * k / 2 = k by omega] at h
      dsimp only at h
      unfold Disjoint2 at da db dt
      refine ih _ _ _ _ _ _ _ (by omega) (by omega) (by omega) (by omega) (by unfold Disjoint2; omega) (by unfold Disjoint2; omega) (by unfold Disjoint2; omega) fun m1 e1 => ?_
      rw [← e1] at h
      refine ih _ _ _ _ _ _ _ (by omega) (by omega) (by omega) (by omega) (by unfold Disjoint2; omega) (by unfold Disjoint2; omega) (by unfold Disjoint2; omega) fun m2 e2 => ?_
      rw [← e2] at h
      refine Wp.copyO hR hW _ _ _ _ (by omega) (by omega) (by omega) fun m3 e3 => ?_
      rw [← e3] at h
      refine Wp.addO hR hW _ _ _ (by omega) (by omega) (by omega) fun m4 e4 => Wp.propCarryO hR hW _ _ _ (by omega) fun m4' e4' => ?_
      rw [e4] at e4'
      rw [← e4'] at h
      refine Wp.addO hR hW _ _ _ (by omega) (by omega) (by omega) fun m5 e5 => Wp.propCarryO hR hW _ _ _ (by omega) fun m5' e5' => ?_
      rw [e5] at e5'
      rw [← e5'] at h
      refine Wp.cmpO hR _ _ _ (by omega) (by omega) ?_
      generalize compareRanges (rd (pv m5' A) a k) (rd (pv m5' A) (a + k) k) = ca at *
      clear e1 e2 e3 e4 e4' e5 e5'
      -- Steps 4 to 6
      have tail : ∀ m6 : Mem, (if ca = 1 then (subMem L t a (a + k) k (pv m5' A) 0).1 else if ca = -1 then (subMem L t (a + k) a k (pv m5' A) 0).1 else pv m5' A) = pv m6 A →
          Wp R0 W0 (fun k' => Thr.cmpO A (b + k) b k fun cb =>
              if cb = 1 then Thr.subO L A (t + k) (b + k) b k 0 fun _ => Thr.karaP L A (t + 2 * k) t (t + k) k (t + (2 * k + 2 * k))
                (if ca * cb = 1 then Thr.addO L A (r + k) (r + k) (t + 2 * k) (2 * k) 0 fun c3 => Thr.propCarryO L A r k c3 (q k')
                else if ca * cb = -1 then Thr.subO L A (r + k) (r + k) (t + 2 * k) (2 * k) 0 fun c3 => Thr.propBorrowO L A r k c3 (q k')
                else q k')
              else if cb = -1 then Thr.subO L A (t + k) b (b + k) k 0 fun _ => Thr.karaP L A (t + 2 * k) t (t + k) k (t + (2 * k + 2 * k))
                (if ca * cb = 1 then Thr.addO L A (r + k) (r + k) (t + 2 * k) (2 * k) 0 fun c3 => Thr.propCarryO L A r k c3 (q k')
                else if ca * cb = -1 then Thr.subO L A (r + k) (r + k) (t + 2 * k) (2 * k) 0 fun c3 => Thr.propBorrowO L A r k c3 (q k')
                else q k')
              else Thr.karaP L A (t + 2 * k) t (t + k) k (t + (2 * k + 2 * k))
                (if ca * cb = 1 then Thr.addO L A (r + k) (r + k) (t + 2 * k) (2 * k) 0 fun c3 => Thr.propCarryO L A r k c3 (q k')
                else if ca * cb = -1 then Thr.subO L A (r + k) (r + k) (t + 2 * k) (2 * k) 0 fun c3 => Thr.propBorrowO L A r k c3 (q k')
                else q k')) m6 P := by
        intro m6 e6
        rw [e6] at h
        refine Wp.cmpO hR _ _ _ (by omega) (by omega) ?_
        generalize compareRanges (rd (pv m6 A) (b + k) k) (rd (pv m6 A) b k) = cb at *
        have fin : ∀ m7 : Mem, (if cb = 1 then (subMem L (t + k) (b + k) b k (pv m6 A) 0).1 else if cb = -1 then (subMem L (t + k) b (b + k) k (pv m6 A) 0).1 else pv m6 A) = pv m7 A →
            Wp R0 W0 (fun k' => Thr.karaP L A (t + 2 * k) t (t + k) k (t + (2 * k + 2 * k))
                (if ca * cb = 1 then Thr.addO L A (r + k) (r + k) (t + 2 * k) (2 * k) 0 fun c3 => Thr.propCarryO L A r k c3 (q k')
                else if ca * cb = -1 then Thr.subO L A (r + k) (r + k) (t + 2 * k) (2 * k) 0 fun c3 => Thr.propBorrowO L A r k c3 (q k')
                else q k')) m7 P := by
          intro m7 e7
          rw [e7] at h
          refine ih _ _ _ _ _ _ _ (by omega) (by omega) (by omega) (by omega) (by unfold Disjoint2; omega) (by unfold Disjoint2; omega) (by unfold Disjoint2; omega) fun m8 e8 => ?_
          rw [← e8] at h
          refine Wp.ite (fun c1 => ?_) (fun c1 => Wp.ite (fun c2 => ?_) (fun c2 => ?_))
          · rw [if_pos c1] at h
            refine Wp.addO hR hW _ _ _ (by omega) (by omega) (by omega) fun m9 e9 => Wp.propCarryO hR hW _ _ _ (by omega) fun m10 e10 => h m10 ?_
            rw [e10, e9]
          · rw [if_neg c1, if_pos c2] at h
            refine Wp.subO hR hW _ _ _ (by omega) (by omega) (by omega) fun m9 e9 => Wp.propBorrowO hR hW _ _ _ (by omega) fun m10 e10 => h m10 ?_
            rw [e10, e9]
          · rw [if_neg c1, if_neg c2] at h
            exact h m8 rfl
        refine Wp.ite (fun c1 => ?_) (fun c1 => Wp.ite (fun c2 => ?_) (fun c2 => ?_))
        · rw [if_pos c1] at fin
          exact Wp.subO hR hW _ _ _ (by omega) (by omega) (by omega) fun m7 e7 => fin m7 e7.symm
        · rw [if_neg c1, if_pos c2] at fin
          exact Wp.subO hR hW _ _ _ (by omega) (by omega) (by omega) fun m7 e7 => fin m7 e7.symm
        · rw [if_neg c1, if_neg c2] at fin
          exact fin m6 rfl
      refine Wp.ite (fun c1 => ?_) (fun c1 => Wp.ite (fun c2 => ?_) (fun c2 => ?_))
      · rw [if_pos c1] at tail
        exact Wp.subO hR hW _ _ _ (by omega) (by omega) (by omega) fun m6 e6 => tail m6 e6.symm
      · rw [if_neg c1, if_pos c2] at tail
        exact Wp.subO hR hW _ _ _ (by omega) (by omega) (by omega) fun m6 e6 => tail m6 e6.symm
      · rw [if_neg c1, if_neg c2] at tail
        exact tail m5' rfl

end Thr
end WD
