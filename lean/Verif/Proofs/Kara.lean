import Verif.Proofs.School
import Verif.Model.Kara
import Mathlib.Tactic.LinearCombination
import Mathlib.Tactic.Zify

namespace WD

/-! ### reading memory -/

@[simp] theorem rd_length (m p n) : (rd m p n).length = n := by
  induction n generalizing p with
  | zero => rfl
  | succ n ih => simp [rd, ih]

theorem rd_congr {m m' : Mem} {p n} (h : ∀ q, p ≤ q → q < p + n → m q = m' q) : rd m p n = rd m' p n := by
  induction n generalizing p with
  | zero => rfl
  | succ n ih =>
    simp only [rd]
    rw [h p (Nat.le_refl _) (by omega), ih (fun q h1 h2 => h q (by omega) (by omega))]

theorem rd_append (m : Mem) (p a b) : rd m p (a + b) = rd m p a ++ rd m (p + a) b := by
  induction a generalizing p with
  | zero => simp [rd]
  | succ a ih =>
    have : a + 1 + b = (a + b) + 1 := by omega
    rw [this]
    simp only [rd, List.cons_append, ih]
    congr 3
    omega

theorem rd_succ (m : Mem) (p n) : rd m p (n + 1) = rd m p n ++ [m (p + n)] := by
  rw [rd_append]; rfl

theorem mem_rd {m : Mem} {p n x} : x ∈ rd m p n ↔ ∃ q, p ≤ q ∧ q < p + n ∧ m q = x := by
  induction n generalizing p with
  | zero => simp [rd]; intro q h1 h2; omega
  | succ n ih =>
    simp only [rd, List.mem_cons, ih]
    constructor
    · rintro (rfl | ⟨q, h1, h2, h3⟩)
      · exact ⟨p, by omega, by omega, rfl⟩
      · exact ⟨q, by omega, by omega, h3⟩
    · rintro ⟨q, h1, h2, h3⟩
      by_cases hq : q = p
      · left; rw [← h3, hq]
      · right; exact ⟨q, by omega, by omega, h3⟩

theorem valid_rd {B : Nat} {m : Mem} {p n} : ValidLimbs B (rd m p n) ↔ ∀ q, p ≤ q → q < p + n → m q < B := by
  unfold ValidLimbs
  constructor
  · intro h q h1 h2; exact h _ (mem_rd.mpr ⟨q, h1, h2, rfl⟩)
  · intro h x hx
    obtain ⟨q, h1, h2, rfl⟩ := mem_rd.mp hx
    exact h q h1 h2

theorem store_frame (m : Mem) (p : Nat) (l : List Nat) (q : Nat) (h : q < p ∨ p + l.length ≤ q) :
    (m.store p l) q = m q := by
  induction l generalizing m p with
  | nil => rfl
  | cons x xs ih =>
    simp only [List.length_cons] at h
    simp only [Mem.store]
    rw [ih _ _ (by omega)]
    simp only [Mem.set]
    rw [if_neg (by omega)]

theorem rd_store (m : Mem) (p : Nat) (l : List Nat) : rd (m.store p l) p l.length = l := by
  induction l generalizing m p with
  | nil => rfl
  | cons x xs ih =>
    simp only [Mem.store, List.length_cons, rd]
    rw [store_frame _ _ _ _ (by omega), ih]
    simp [Mem.set]

/-! ### in-place add / subtract refine the list versions -/

theorem addC_snoc (L : Limb) (c a b : Nat) : ∀ (as bs : List Nat), as.length = bs.length →
    addC L c (as ++ [a]) (bs ++ [b])
      = ((addC L (addStep L a b c).2 as bs).1 ++ [(addStep L a b c).1], (addC L (addStep L a b c).2 as bs).2)
  | [], [], _ => by simp [addC]
  | x :: xs, y :: ys, h => by
    have ih := addC_snoc L c a b xs ys (by simpa using h)
    simp only [List.cons_append, addC, ih]

theorem subC_snoc (L : Limb) (c a b : Nat) : ∀ (as bs : List Nat), as.length = bs.length →
    subC L c (as ++ [a]) (bs ++ [b])
      = ((subC L (subStep L a b c).2 as bs).1 ++ [(subStep L a b c).1], (subC L (subStep L a b c).2 as bs).2)
  | [], [], _ => by simp [subC]
  | x :: xs, y :: ys, h => by
    have ih := subC_snoc L c a b xs ys (by simpa using h)
    simp only [List.cons_append, subC, ih]

/-- Source range equal to, or disjoint from, the destination. -/
def SameOrDisj (r u n : Nat) : Prop := r = u ∨ Disjoint2 r n u n

theorem addMem_spec (L : Limb) {r u v : Nat} : ∀ (n : Nat) (m : Mem) (c : Nat),
    SameOrDisj r u n → SameOrDisj r v n →
    rd (addMem L r u v n m c).1 r n = (addC L c (rd m u n) (rd m v n)).1 ∧
    (addMem L r u v n m c).2 = (addC L c (rd m u n) (rd m v n)).2 ∧
    ∀ q, (q < r ∨ r + n ≤ q) → (addMem L r u v n m c).1 q = m q
  | 0, m, c, _, _ => by simp [addMem, rd, addC]
  | n + 1, m, c, hu, hv => by
    simp only [addMem]
    set x := addStep L (m (u + n)) (m (v + n)) c with hx
    have hu' : SameOrDisj r u n := by
      unfold SameOrDisj Disjoint2 at *; omega
    have hv' : SameOrDisj r v n := by
      unfold SameOrDisj Disjoint2 at *; omega
    obtain ⟨i1, i2, i3⟩ := addMem_spec L n (m.set (r + n) x.1) x.2 hu' hv'
    have eu : rd (m.set (r + n) x.1) u n = rd m u n := rd_congr (fun q h1 h2 => by
      simp only [Mem.set]; rw [if_neg]; unfold SameOrDisj Disjoint2 at hu; omega)
    have ev : rd (m.set (r + n) x.1) v n = rd m v n := rd_congr (fun q h1 h2 => by
      simp only [Mem.set]; rw [if_neg]; unfold SameOrDisj Disjoint2 at hv; omega)
    rw [eu, ev] at i1 i2
    rw [rd_succ m u, rd_succ m v, addC_snoc L _ _ _ _ _ (by simp), rd_succ, i1, i2, i3 _ (by omega), ← hx]
    refine ⟨by simp [Mem.set], rfl, ?_⟩
    intro q hq
    rw [i3 q (by omega)]
    simp only [Mem.set]
    rw [if_neg (by omega)]

theorem subMem_spec (L : Limb) {r u v : Nat} : ∀ (n : Nat) (m : Mem) (c : Nat),
    SameOrDisj r u n → SameOrDisj r v n →
    rd (subMem L r u v n m c).1 r n = (subC L c (rd m u n) (rd m v n)).1 ∧
    (subMem L r u v n m c).2 = (subC L c (rd m u n) (rd m v n)).2 ∧
    ∀ q, (q < r ∨ r + n ≤ q) → (subMem L r u v n m c).1 q = m q
  | 0, m, c, _, _ => by simp [subMem, rd, subC]
  | n + 1, m, c, hu, hv => by
    simp only [subMem]
    set x := subStep L (m (u + n)) (m (v + n)) c with hx
    have hu' : SameOrDisj r u n := by
      unfold SameOrDisj Disjoint2 at *; omega
    have hv' : SameOrDisj r v n := by
      unfold SameOrDisj Disjoint2 at *; omega
    obtain ⟨i1, i2, i3⟩ := subMem_spec L n (m.set (r + n) x.1) x.2 hu' hv'
    have eu : rd (m.set (r + n) x.1) u n = rd m u n := rd_congr (fun q h1 h2 => by
      simp only [Mem.set]; rw [if_neg]; unfold SameOrDisj Disjoint2 at hu; omega)
    have ev : rd (m.set (r + n) x.1) v n = rd m v n := rd_congr (fun q h1 h2 => by
      simp only [Mem.set]; rw [if_neg]; unfold SameOrDisj Disjoint2 at hv; omega)
    rw [eu, ev] at i1 i2
    rw [rd_succ m u, rd_succ m v, subC_snoc L _ _ _ _ _ (by simp), rd_succ, i1, i2, i3 _ (by omega), ← hx]
    refine ⟨by simp [Mem.set], rfl, ?_⟩
    intro q hq
    rw [i3 q (by omega)]
    simp only [Mem.set]
    rw [if_neg (by omega)]

/-! ### carry / borrow propagation -/

theorem limbsVal_snoc (B : Nat) (l : List Nat) (x : Nat) : limbsVal B (l ++ [x]) = limbsVal B l * B + x := by
  rw [limbsVal_append]; simp [limbsVal_cons]

theorem propCarry_spec (L : Limb) (t : Nat) : ∀ (n : Nat) (m : Mem) (c : Nat), c ≤ 1 →
    ValidLimbs L.mask (rd m t n) → limbsVal L.mask (rd m t n) + c < L.mask ^ n →
    limbsVal L.mask (rd (propCarry L t n m c) t n) = limbsVal L.mask (rd m t n) + c ∧
    ValidLimbs L.mask (rd (propCarry L t n m c) t n) ∧
    ∀ q, (q < t ∨ t + n ≤ q) → (propCarry L t n m c) q = m q
  | 0, m, c, _, hv, hlt => by
    simp [rd] at hlt
    simp [propCarry, rd, hlt, validLimbs_nil]
  | n + 1, m, c, hc, hv, hlt => by
    simp only [propCarry]
    split
    · rename_i h0; subst h0; exact ⟨by simp, hv, fun _ _ => rfl⟩
    · rename_i h0
      have hc1 : c = 1 := by omega
      subst hc1
      rw [rd_succ, validLimbs_append] at hv
      have hx : m (t + n) < L.mask := hv.2 _ (by simp)
      rw [rd_succ, limbsVal_snoc] at hlt
      have hW := L.two_mask_lt
      have hM := L.mask_pos
      have ett : (m (t + n) + 1) % L.W = m (t + n) + 1 := Nat.mod_eq_of_lt (by omega)
      rw [ett]
      set c' := if m (t + n) + 1 ≥ L.mask then 1 else 0 with hc'
      set x := (m (t + n) + 1 + L.W - if c' ≠ 0 then L.mask else 0) % L.W with hxd
      have hstep : x < L.mask ∧ c' ≤ 1 ∧ x + c' * L.mask = m (t + n) + 1 := by
        rw [hxd, hc']
        split
        · simp
          have : m (t + n) + 1 = L.mask := by omega
          rw [this]
          simp [hM]
        · simp
          rw [Nat.mod_eq_of_lt (by omega)]; omega
      obtain ⟨s1, s2, s3⟩ := hstep
      have er : rd (m.set (t + n) x) t n = rd m t n := rd_congr (fun q h1 h2 => by
        simp only [Mem.set]; rw [if_neg (by omega)])
      have hlt' : limbsVal L.mask (rd m t n) + c' < L.mask ^ n := by
        rw [pow_succ] at hlt
        by_contra hcon
        push Not at hcon
        have := Nat.mul_le_mul_right L.mask hcon
        nlinarith
      obtain ⟨i1, i2, i3⟩ := propCarry_spec L t n (m.set (t + n) x) c' s2 (by rw [er]; exact hv.1) (by rw [er]; exact hlt')
      rw [er] at i1
      have hlast : (propCarry L t n (m.set (t + n) x) c') (t + n) = x := by
        rw [i3 _ (by omega)]; simp [Mem.set]
      refine ⟨?_, ?_, ?_⟩
      · rw [rd_succ, limbsVal_snoc, hlast, i1, rd_succ, limbsVal_snoc]
        nlinarith
      · rw [rd_succ, validLimbs_append, hlast]
        exact ⟨i2, by simp [ValidLimbs, s1]⟩
      · intro q hq
        rw [i3 q (by omega)]
        simp only [Mem.set]; rw [if_neg (by omega)]

theorem propBorrow_spec (L : Limb) (t : Nat) : ∀ (n : Nat) (m : Mem) (c : Nat), c ≤ 1 →
    ValidLimbs L.mask (rd m t n) → c ≤ limbsVal L.mask (rd m t n) →
    limbsVal L.mask (rd (propBorrow L t n m c) t n) + c = limbsVal L.mask (rd m t n) ∧
    ValidLimbs L.mask (rd (propBorrow L t n m c) t n) ∧
    ∀ q, (q < t ∨ t + n ≤ q) → (propBorrow L t n m c) q = m q
  | 0, m, c, _, hv, hlt => by
    simp [rd] at hlt
    simp [propBorrow, rd, hlt, validLimbs_nil]
  | n + 1, m, c, hc, hv, hlt => by
    simp only [propBorrow]
    split
    · rename_i h0; subst h0; exact ⟨by simp, hv, fun _ _ => rfl⟩
    · rename_i h0
      have hc1 : c = 1 := by omega
      subst hc1
      rw [rd_succ, validLimbs_append] at hv
      have hx : m (t + n) < L.mask := hv.2 _ (by simp)
      rw [rd_succ, limbsVal_snoc] at hlt
      have hW := L.two_mask_lt
      have hM := L.mask_pos
      -- unify the two branches
      have key : ∀ x c', x < L.mask → c' ≤ 1 → x + 1 = m (t + n) + c' * L.mask →
          limbsVal L.mask (rd (propBorrow L t n (m.set (t + n) x) c') t (n + 1)) + 1 = limbsVal L.mask (rd m t (n + 1)) ∧
          ValidLimbs L.mask (rd (propBorrow L t n (m.set (t + n) x) c') t (n + 1)) ∧
          ∀ q, (q < t ∨ t + (n + 1) ≤ q) → (propBorrow L t n (m.set (t + n) x) c') q = m q := by
        intro x c' s1 s2 s3
        have er : rd (m.set (t + n) x) t n = rd m t n := rd_congr (fun q h1 h2 => by
          simp only [Mem.set]; rw [if_neg (by omega)])
        have hle : c' ≤ limbsVal L.mask (rd m t n) := by
          by_contra hcon
          have h1 : c' = 1 := by omega
          have h2 : limbsVal L.mask (rd m t n) = 0 := by omega
          rw [h2] at hlt; subst h1; omega
        obtain ⟨i1, i2, i3⟩ := propBorrow_spec L t n (m.set (t + n) x) c' s2 (by rw [er]; exact hv.1) (by rw [er]; exact hle)
        rw [er] at i1
        have hlast : (propBorrow L t n (m.set (t + n) x) c') (t + n) = x := by
          rw [i3 _ (by omega)]; simp [Mem.set]
        refine ⟨?_, ?_, ?_⟩
        · rw [rd_succ, limbsVal_snoc, hlast, rd_succ, limbsVal_snoc, ← i1]
          nlinarith
        · rw [rd_succ, validLimbs_append, hlast]
          exact ⟨i2, by simp [ValidLimbs, s1]⟩
        · intro q hq
          rw [i3 q (by omega)]
          simp only [Mem.set]; rw [if_neg (by omega)]
      split
      · rename_i hneg
        have h0 : m (t + n) = 0 := by omega
        have : ((((m (t + n) : Int) - 1) + L.mask) % L.W).toNat = L.mask - 1 := by
          rw [h0, Int.emod_eq_of_lt (by omega) (by omega)]; omega
        rw [this]
        exact key _ 1 (by omega) (by omega) (by omega)
      · rename_i hneg
        have : (((m (t + n) : Int) - 1) % L.W).toNat = m (t + n) - 1 := by
          rw [Int.emod_eq_of_lt (by omega) (by omega)]; omega
        rw [this]
        exact key _ 0 (by omega) (by omega) (by omega)

/-! ### adding / subtracting into the middle of the result area -/

/-- value of a range of length nh + n + k split in three -/
theorem val_split3 (B : Nat) (m : Mem) (r x y z : Nat) :
    limbsVal B (rd m r (x + y + z))
      = limbsVal B (rd m r x) * B ^ (y + z) + limbsVal B (rd m (r + x) y) * B ^ z + limbsVal B (rd m (r + x + y) z) := by
  rw [rd_append, rd_append, limbsVal_append, limbsVal_append]
  simp only [rd_length, pow_add]
  rw [show r + (x + y) = r + x + y by omega]
  ring

theorem valid_split3 {B : Nat} {m : Mem} {r x y z : Nat} :
    ValidLimbs B (rd m r (x + y + z)) ↔
      ValidLimbs B (rd m r x) ∧ ValidLimbs B (rd m (r + x) y) ∧ ValidLimbs B (rd m (r + x + y) z) := by
  rw [rd_append, rd_append, validLimbs_append, validLimbs_append, show r + (x + y) = r + x + y by omega]
  tauto

theorem addMiddle_spec (L : Limb) (m : Mem) (r x y z s : Nat) (X : Nat)
    (hd : Disjoint2 (r + x) y s y)
    (hv : ValidLimbs L.mask (rd m r (x + y + z))) (hs : ValidLimbs L.mask (rd m s y))
    (hX : limbsVal L.mask (rd m s y) = X)
    (hlt : limbsVal L.mask (rd m r (x + y + z)) + X * L.mask ^ z < L.mask ^ (x + y + z)) :
    let p := addMem L (r + x) (r + x) s y m 0
    let m' := propCarry L r x p.1 p.2
    limbsVal L.mask (rd m' r (x + y + z)) = limbsVal L.mask (rd m r (x + y + z)) + X * L.mask ^ z ∧
    ValidLimbs L.mask (rd m' r (x + y + z)) ∧
    ∀ q, (q < r ∨ r + (x + y) ≤ q) → m' q = m q := by
  intro p m'
  obtain ⟨a1, a2, a3⟩ := addMem_spec L y m 0 (Or.inl rfl : SameOrDisj (r + x) (r + x) y) (Or.inr hd)
  rw [valid_split3] at hv
  obtain ⟨hv1, hv2, hv3⟩ := hv
  obtain ⟨b1, b2, b3, b4⟩ := addC_spec L (Nat.zero_le 1) (rd m (r + x) y) (rd m s y) (by simp) hv2 hs
  rw [← a1] at b1 b2 b4
  rw [← a2] at b3 b4
  simp only [rd_length] at b4
  have e1 : rd p.1 r x = rd m r x := rd_congr (fun q h1 h2 => a3 q (by omega))
  have e3 : rd p.1 (r + x + y) z = rd m (r + x + y) z := rd_congr (fun q h1 h2 => a3 q (by omega))
  rw [val_split3] at hlt
  have hlt' : limbsVal L.mask (rd m r x) + p.2 < L.mask ^ x := by
    by_contra hcon
    push Not at hcon
    have h1 := Nat.mul_le_mul_right (L.mask ^ y * L.mask ^ z) hcon
    rw [pow_add, pow_add, pow_add] at hlt
    rw [hX] at b4
    change limbsVal L.mask (rd p.1 (r + x) y) + p.2 * L.mask ^ y = _ at b4
    generalize limbsVal L.mask (rd p.1 (r + x) y) = P1 at *
    generalize p.2 = c at *
    generalize L.mask ^ y = Y at *
    generalize L.mask ^ z = Z at *
    generalize L.mask ^ x = XX at *
    have h2 : (P1 + c * Y) * Z = (limbsVal L.mask (rd m (r + x) y) + X + 0) * Z := by rw [b4]
    nlinarith
  obtain ⟨c1, c2, c3⟩ := propCarry_spec L r x p.1 p.2 b3 (by rw [e1]; exact hv1) (by rw [e1]; exact hlt')
  have f2 : rd m' (r + x) y = rd p.1 (r + x) y := rd_congr (fun q h1 h2 => c3 q (by omega))
  have f3 : rd m' (r + x + y) z = rd m (r + x + y) z := by
    rw [← e3]; exact rd_congr (fun q h1 h2 => c3 q (by omega))
  refine ⟨?_, ?_, ?_⟩
  · rw [val_split3, val_split3, f2, f3, c1, e1, pow_add]
    rw [hX] at b4
    change limbsVal L.mask (rd p.1 (r + x) y) + p.2 * L.mask ^ y = _ at b4
    generalize limbsVal L.mask (rd p.1 (r + x) y) = P1 at *
    have h2 : (P1 + p.2 * L.mask ^ y) * L.mask ^ z = (limbsVal L.mask (rd m (r + x) y) + X + 0) * L.mask ^ z := by rw [b4]
    nlinarith
  · rw [valid_split3, f2, f3]; exact ⟨c2, b2, hv3⟩
  · intro q hq
    exact (c3 q (by omega)).trans (a3 q (by omega))

theorem subMiddle_spec (L : Limb) (m : Mem) (r x y z s : Nat) (X : Nat)
    (hd : Disjoint2 (r + x) y s y)
    (hv : ValidLimbs L.mask (rd m r (x + y + z))) (hs : ValidLimbs L.mask (rd m s y))
    (hX : limbsVal L.mask (rd m s y) = X)
    (hle : X * L.mask ^ z ≤ limbsVal L.mask (rd m r (x + y + z))) :
    let p := subMem L (r + x) (r + x) s y m 0
    let m' := propBorrow L r x p.1 p.2
    limbsVal L.mask (rd m' r (x + y + z)) + X * L.mask ^ z = limbsVal L.mask (rd m r (x + y + z)) ∧
    ValidLimbs L.mask (rd m' r (x + y + z)) ∧
    ∀ q, (q < r ∨ r + (x + y) ≤ q) → m' q = m q := by
  intro p m'
  obtain ⟨a1, a2, a3⟩ := subMem_spec L y m 0 (Or.inl rfl : SameOrDisj (r + x) (r + x) y) (Or.inr hd)
  rw [valid_split3] at hv
  obtain ⟨hv1, hv2, hv3⟩ := hv
  obtain ⟨b1, b2, b3, b4⟩ := subC_spec L (Nat.zero_le 1) (rd m (r + x) y) (rd m s y) (by simp) hv2 hs
  rw [← a1] at b1 b2 b4
  rw [← a2] at b3 b4
  simp only [rd_length] at b4
  have e1 : rd p.1 r x = rd m r x := rd_congr (fun q h1 h2 => a3 q (by omega))
  have e3 : rd p.1 (r + x + y) z = rd m (r + x + y) z := rd_congr (fun q h1 h2 => a3 q (by omega))
  rw [val_split3] at hle
  have hz := limbsVal_lt hv3
  have hy := limbsVal_lt b2
  rw [rd_length] at hz hy
  change limbsVal L.mask (rd p.1 (r + x) y) + limbsVal L.mask (rd m s y) + 0
    = limbsVal L.mask (rd m (r + x) y) + p.2 * L.mask ^ y at b4
  change limbsVal L.mask (rd p.1 (r + x) y) < _ at hy
  rw [hX] at b4
  have hle' : p.2 ≤ limbsVal L.mask (rd m r x) := by
    by_contra hcon
    push Not at hcon
    have b3' : p.2 ≤ 1 := b3
    have h1 : p.2 = 1 := by omega
    have h0 : limbsVal L.mask (rd m r x) = 0 := by omega
    rw [h0] at hle
    rw [h1] at b4
    generalize limbsVal L.mask (rd p.1 (r + x) y) = P1 at *
    generalize limbsVal L.mask (rd m (r + x) y) = V1 at *
    generalize L.mask ^ y = Y at *
    generalize L.mask ^ z = Z at *
    have h2 : V1 + 1 ≤ X := by omega
    have := Nat.mul_le_mul_right Z h2
    nlinarith
  obtain ⟨c1, c2, c3⟩ := propBorrow_spec L r x p.1 p.2 b3 (by rw [e1]; exact hv1) (by rw [e1]; exact hle')
  have f2 : rd m' (r + x) y = rd p.1 (r + x) y := rd_congr (fun q h1 h2 => c3 q (by omega))
  have f3 : rd m' (r + x + y) z = rd m (r + x + y) z := by
    rw [← e3]; exact rd_congr (fun q h1 h2 => c3 q (by omega))
  refine ⟨?_, ?_, ?_⟩
  · rw [val_split3, val_split3, f2, f3, ← e1, ← c1, pow_add]
    generalize limbsVal L.mask (rd p.1 (r + x) y) = P1 at *
    have h2 : (P1 + X + 0) * L.mask ^ z = (limbsVal L.mask (rd m (r + x) y) + p.2 * L.mask ^ y) * L.mask ^ z := by rw [b4]
    change (limbsVal L.mask (rd m' r x)) * _ + _ + _ + _ = (limbsVal L.mask (rd m' r x) + p.2) * _ + _ + _
    nlinarith
  · rw [valid_split3, f2, f3]; exact ⟨c2, b2, hv3⟩
  · intro q hq
    exact (c3 q (by omega)).trans (a3 q (by omega))


/-! ### the Karatsuba recursion -/

/-- absolute difference into a scratch area, steps 3 and 4 -/
theorem absDiff_spec (L : Limb) (m : Mem) (d u v n : Nat)
    (hdu : Disjoint2 d n u n) (hdv : Disjoint2 d n v n)
    (hu : ValidLimbs L.mask (rd m u n)) (hv : ValidLimbs L.mask (rd m v n)) (hd : ValidLimbs L.mask (rd m d n)) :
    let c := compareRanges (rd m u n) (rd m v n)
    let m' := if c = 1 then (subMem L d u v n m 0).1 else if c = -1 then (subMem L d v u n m 0).1 else m
    ValidLimbs L.mask (rd m' d n) ∧ (∀ q, (q < d ∨ d + n ≤ q) → m' q = m q) ∧
    ((c = 1 ∧ limbsVal L.mask (rd m' d n) + limbsVal L.mask (rd m v n) = limbsVal L.mask (rd m u n)) ∨
     (c = -1 ∧ limbsVal L.mask (rd m' d n) + limbsVal L.mask (rd m u n) = limbsVal L.mask (rd m v n)) ∨
     (c = 0 ∧ limbsVal L.mask (rd m u n) = limbsVal L.mask (rd m v n))) := by
  intro c m'
  have hc : c = cmp3 (limbsVal L.mask (rd m u n)) (limbsVal L.mask (rd m v n)) :=
    compareRanges_spec L.mask _ _ (by simp) hu hv
  have sub : ∀ u v, Disjoint2 d n u n → Disjoint2 d n v n →
      ValidLimbs L.mask (rd m u n) → ValidLimbs L.mask (rd m v n) →
      limbsVal L.mask (rd m v n) < limbsVal L.mask (rd m u n) →
      ValidLimbs L.mask (rd (subMem L d u v n m 0).1 d n) ∧
      (∀ q, (q < d ∨ d + n ≤ q) → (subMem L d u v n m 0).1 q = m q) ∧
      limbsVal L.mask (rd (subMem L d u v n m 0).1 d n) + limbsVal L.mask (rd m v n) = limbsVal L.mask (rd m u n) := by
    intro u v hdu hdv hu hv hlt
    obtain ⟨a1, a2, a3⟩ := subMem_spec L n m 0 (Or.inr hdu : SameOrDisj d u n) (Or.inr hdv)
    obtain ⟨b1, b2, b3, b4⟩ := subC_spec L (Nat.zero_le 1) (rd m u n) (rd m v n) (by simp) hu hv
    rw [a1]
    refine ⟨b2, a3, ?_⟩
    have h1 := limbsVal_lt b2
    rw [b1] at h1
    have h2 : (subC L 0 (rd m u n) (rd m v n)).2 = 0 := by
      by_contra hne
      have : (subC L 0 (rd m u n) (rd m v n)).2 = 1 := by omega
      rw [this] at b4; omega
    rw [h2] at b4; omega
  simp only [m']
  unfold cmp3 at hc
  by_cases h1 : limbsVal L.mask (rd m u n) < limbsVal L.mask (rd m v n)
  · rw [if_pos h1] at hc
    obtain ⟨x, y, z⟩ := sub v u hdv hdu hv hu h1
    rw [hc]
    simp only [show ((-1 : Int) = 1) = False by simp, if_false, if_true]
    exact ⟨x, y, Or.inr (Or.inl ⟨trivial, z⟩)⟩
  · rw [if_neg h1] at hc
    by_cases h2 : limbsVal L.mask (rd m u n) = limbsVal L.mask (rd m v n)
    · rw [if_pos h2] at hc
      rw [hc]
      simp only [show ((0 : Int) = 1) = False by simp, show ((0 : Int) = -1) = False by simp, if_false]
      exact ⟨hd, fun _ _ => trivial, Or.inr (Or.inr ⟨trivial, h2⟩)⟩
    · rw [if_neg h2] at hc
      obtain ⟨x, y, z⟩ := sub u v hdu hdv hu hv (by omega)
      rw [hc]
      simp only [if_true]
      exact ⟨x, y, Or.inl ⟨trivial, z⟩⟩

/-- The contract of the Karatsuba routine at length `n`. -/
def KaraOk (L : Limb) (n : Nat) : Prop :=
  ∀ (m : Mem) (r a b t : Nat),
    Disjoint2 r (2 * n) a n → Disjoint2 r (2 * n) b n → Disjoint2 r (2 * n) t (4 * n) →
    Disjoint2 t (4 * n) a n → Disjoint2 t (4 * n) b n →
    ValidLimbs L.mask (rd m a n) → ValidLimbs L.mask (rd m b n) →
    limbsVal L.mask (rd (kara L m r a b n t) r (2 * n)) = limbsVal L.mask (rd m a n) * limbsVal L.mask (rd m b n) ∧
    ValidLimbs L.mask (rd (kara L m r a b n t) r (2 * n)) ∧
    ∀ q, (q < r ∨ r + 2 * n ≤ q) → (q < t ∨ t + 4 * n ≤ q) → kara L m r a b n t q = m q

theorem kara_base (L : Limb) {n : Nat} (h0 : 0 < n) (h : n ≤ 32) : KaraOk L n := by
  intro m r a b t _ _ _ _ _ va vb
  have hsafe : schoolSafe L n := by cases L <;> simp [schoolSafe] <;> omega
  obtain ⟨s1, s2, s3⟩ := schoolMul_spec L (a := rd m a n) (b := rd m b n) (by simp) (by simpa) va vb (by simpa)
  rw [kara, dif_pos h]
  have hrd : rd (schoolMem L m r a b n) r (2 * n) = schoolMul L (rd m a n) (rd m b n) := by
    have := rd_store m r (schoolMul L (rd m a n) (rd m b n))
    rw [s1, rd_length] at this
    exact this
  rw [hrd]
  refine ⟨s3, s2, ?_⟩
  intro q hq _
  exact store_frame _ _ _ _ (by rw [s1, rd_length]; exact hq)

set_option maxHeartbeats 1000000 in
theorem kara_step (L : Limb) {nh : Nat} (_h0 : 0 < nh) (hbig : ¬ 2 * nh ≤ 32) (ih : KaraOk L nh) : KaraOk L (2 * nh) := by
  intro m r a b t dra drb drt dta dtb va vb
  unfold Disjoint2 at *
  generalize hF : kara L m r a b (2 * nh) t = F
  rw [kara, dif_neg hbig] at hF
  rw [show 2 * nh / 2 = nh by omega] at hF
  extract_lets nh' a0 a1 b0 b1 r0 r1 r2 t0 t1 t2 t4 m1 m2 m3 s1 m4 s2 m5 ca m6 cb m7 m8 s3 s3' at hF
  -- operand halves
  have ea : rd m a (2 * nh) = rd m a nh ++ rd m (a + nh) nh := by rw [two_mul, rd_append]
  have eb : rd m b (2 * nh) = rd m b nh ++ rd m (b + nh) nh := by rw [two_mul, rd_append]
  rw [ea, validLimbs_append] at va
  rw [eb, validLimbs_append] at vb
  obtain ⟨va1, va0⟩ := va
  obtain ⟨vb1, vb0⟩ := vb
  set A1 := limbsVal L.mask (rd m a nh) with hA1
  set A0 := limbsVal L.mask (rd m (a + nh) nh) with hA0
  set B1 := limbsVal L.mask (rd m b nh) with hB1
  set B0 := limbsVal L.mask (rd m (b + nh) nh) with hB0
  have eA : limbsVal L.mask (rd m a (2 * nh)) = A1 * L.mask ^ nh + A0 := by
    rw [ea, limbsVal_append, rd_length]
  have eB : limbsVal L.mask (rd m b (2 * nh)) = B1 * L.mask ^ nh + B0 := by
    rw [eb, limbsVal_append, rd_length]
  set H := L.mask ^ nh with hH
  have lA1 : A1 < H := by have := limbsVal_lt va1; rwa [rd_length] at this
  have lA0 : A0 < H := by have := limbsVal_lt va0; rwa [rd_length] at this
  have lB1 : B1 < H := by have := limbsVal_lt vb1; rwa [rd_length] at this
  have lB0 : B0 < H := by have := limbsVal_lt vb0; rwa [rd_length] at this
  -- Step 1a
  obtain ⟨p1, p2, p3⟩ := ih m r a b t (by unfold Disjoint2; omega) (by unfold Disjoint2; omega) (by unfold Disjoint2; omega)
    (by unfold Disjoint2; omega) (by unfold Disjoint2; omega) va1 vb1
  change limbsVal L.mask (rd m1 r (2 * nh)) = A1 * B1 at p1
  change ValidLimbs L.mask (rd m1 r (2 * nh)) at p2
  change ∀ q, _ → _ → m1 q = m q at p3
  -- Step 1b
  have ea0 : rd m1 (a + nh) nh = rd m (a + nh) nh := rd_congr fun q h1 h2 => p3 q (by omega) (by omega)
  have eb0 : rd m1 (b + nh) nh = rd m (b + nh) nh := rd_congr fun q h1 h2 => p3 q (by omega) (by omega)
  obtain ⟨q1, q2, q3⟩ := ih m1 (r + 2 * nh) (a + nh) (b + nh) t (by unfold Disjoint2; omega) (by unfold Disjoint2; omega)
    (by unfold Disjoint2; omega) (by unfold Disjoint2; omega) (by unfold Disjoint2; omega)
    (by rw [ea0]; exact va0) (by rw [eb0]; exact vb0)
  rw [ea0, eb0] at q1
  change limbsVal L.mask (rd m2 (r + 2 * nh) (2 * nh)) = A0 * B0 at q1
  change ValidLimbs L.mask (rd m2 (r + 2 * nh) (2 * nh)) at q2
  change ∀ q, _ → _ → m2 q = m1 q at q3
  have er0 : rd m2 r (2 * nh) = rd m1 r (2 * nh) := rd_congr fun q h1 h2 => q3 q (by omega) (by omega)
  have er : rd m2 r (2 * nh * 2) = rd m2 r (2 * nh) ++ rd m2 (r + 2 * nh) (2 * nh) := by
    rw [Nat.mul_two, rd_append]
  -- copy
  have hst : rd m3 t (2 * nh * 2) = rd m2 r (2 * nh * 2) := by
    have := rd_store m2 t (rd m2 r (2 * nh * 2))
    rwa [rd_length] at this
  have hsf : ∀ q, (q < t ∨ t + 2 * nh * 2 ≤ q) → m3 q = m2 q := fun q hq =>
    store_frame _ _ _ _ (by rw [rd_length]; omega)
  have est : rd m3 t (2 * nh * 2) = rd m3 t (2 * nh) ++ rd m3 (t + 2 * nh) (2 * nh) := by
    rw [Nat.mul_two, rd_append]
  rw [er, est] at hst
  have hlen : (rd m3 t (2 * nh)).length = (rd m2 r (2 * nh)).length := by simp
  obtain ⟨ht0, ht2⟩ := List.append_inj hst hlen
  rw [er0] at ht0
  have er3 : rd m3 r (4 * nh) = rd m1 r (2 * nh) ++ rd m2 (r + 2 * nh) (2 * nh) := by
    rw [← er0, ← er, show 2 * nh * 2 = 4 * nh by omega]
    exact rd_congr fun q h1 h2 => hsf q (by omega)
  have v3 : limbsVal L.mask (rd m3 r (4 * nh)) = A1 * B1 * (H * H) + A0 * B0 := by
    rw [er3, limbsVal_append, rd_length, p1, q1, two_mul, pow_add]
  have w3 : ValidLimbs L.mask (rd m3 r (4 * nh)) := by rw [er3, validLimbs_append]; exact ⟨p2, q2⟩
  have split : ∀ (mm : Mem), rd mm r (nh + 2 * nh + nh) = rd mm r (4 * nh) := fun mm => by
    rw [show nh + 2 * nh + nh = 4 * nh by omega]
  have hHH : L.mask ^ (nh + 2 * nh + nh) = H * H * (H * H) := by
    rw [show nh + 2 * nh + nh = nh + nh + (nh + nh) by omega, pow_add, pow_add]
  -- bounds
  have hHpos : 0 < H := by omega
  have bP1 : A1 * B1 ≤ (H - 1) * (H - 1) := Nat.mul_le_mul (by omega) (by omega)
  have bP0 : A0 * B0 ≤ (H - 1) * (H - 1) := Nat.mul_le_mul (by omega) (by omega)
  obtain ⟨K, hK⟩ : ∃ K, H = K + 1 := ⟨H - 1, by omega⟩
  have hbound : A1 * B1 * (H * H) + A0 * B0 + A1 * B1 * H + A0 * B0 * H < H * H * (H * H) := by
    rw [hK] at bP1 bP0 ⊢
    simp only [Nat.add_sub_cancel] at bP1 bP0
    have e1 : A1 * B1 * ((K + 1) * (K + 1)) + A0 * B0 + A1 * B1 * (K + 1) + A0 * B0 * (K + 1)
        = A1 * B1 * ((K + 1) * (K + 2)) + A0 * B0 * (K + 2) := by ring
    rw [e1]
    have h1 := Nat.mul_le_mul_right ((K + 1) * (K + 2)) bP1
    have h2 := Nat.mul_le_mul_right (K + 2) bP0
    have e2 : K * K * ((K + 1) * (K + 2)) + K * K * (K + 2) + (2 * (K * (K + 2)) + 1)
        = (K + 1) * (K + 1) * ((K + 1) * (K + 1)) := by ring
    omega
  -- Step 2a
  have st2a := addMiddle_spec L m3 r nh (2 * nh) nh t (A1 * B1) (by unfold Disjoint2; omega)
    (by rw [split]; exact w3) (by rw [ht0]; exact p2) (by rw [ht0]; exact p1)
    (by rw [split, v3, hHH, ← hH]; omega)
  obtain ⟨u1, u2, u3⟩ := st2a
  change limbsVal L.mask (rd m4 r _) = _ at u1
  change ValidLimbs L.mask (rd m4 r _) at u2
  change ∀ q, _ → m4 q = m3 q at u3
  rw [split, split, v3, ← hH] at u1
  -- Step 2b
  have et2 : rd m4 (t + 2 * nh) (2 * nh) = rd m2 (r + 2 * nh) (2 * nh) := by
    rw [← ht2]; exact rd_congr fun q h1 h2 => u3 q (by omega)
  have st2b := addMiddle_spec L m4 r nh (2 * nh) nh (t + 2 * nh) (A0 * B0) (by unfold Disjoint2; omega)
    u2 (by rw [et2]; exact q2) (by rw [et2]; exact q1)
    (by rw [split, u1, hHH, ← hH]; omega)
  obtain ⟨x1, x2, x3⟩ := st2b
  change limbsVal L.mask (rd m5 r _) = _ at x1
  change ValidLimbs L.mask (rd m5 r _) at x2
  change ∀ q, _ → m5 q = m4 q at x3
  rw [split, split, u1, ← hH] at x1
  have fr5 : ∀ q, (q < r ∨ r + 4 * nh ≤ q) → (q < t ∨ t + 8 * nh ≤ q) → m5 q = m q := fun q h1 h2 => by
    rw [x3 q (by omega), u3 q (by omega), hsf q (by omega), q3 q (by omega) (by omega), p3 q (by omega) (by omega)]
  have frt5 : ∀ q, t ≤ q → q < t + 4 * nh → m5 q = m3 q := fun q h1 h2 => by
    rw [x3 q (by omega), u3 q (by omega)]
  have et05 : rd m5 t (2 * nh) = rd m1 r (2 * nh) := by
    rw [← ht0]; exact rd_congr fun q h1 h2 => frt5 q (by omega) (by omega)
  have vt05 : ValidLimbs L.mask (rd m5 t nh) ∧ ValidLimbs L.mask (rd m5 (t + nh) nh) := by
    rw [← validLimbs_append, ← rd_append, ← two_mul, et05]; exact p2
  -- Step 3
  have ea1_5 : rd m5 a nh = rd m a nh := rd_congr fun q h1 h2 => fr5 q (by omega) (by omega)
  have ea0_5 : rd m5 (a + nh) nh = rd m (a + nh) nh := rd_congr fun q h1 h2 => fr5 q (by omega) (by omega)
  have st3 := absDiff_spec L m5 t a (a + nh) nh (by unfold Disjoint2; omega) (by unfold Disjoint2; omega)
    (by rw [ea1_5]; exact va1) (by rw [ea0_5]; exact va0) vt05.1
  obtain ⟨y1, y2, y3⟩ := st3
  change ValidLimbs L.mask (rd m6 t nh) at y1
  change ∀ q, _ → m6 q = m5 q at y2
  change (ca = 1 ∧ limbsVal L.mask (rd m6 t nh) + _ = _) ∨ (ca = -1 ∧ limbsVal L.mask (rd m6 t nh) + _ = _) ∨ (ca = 0 ∧ _) at y3
  rw [ea1_5, ea0_5, ← hA1, ← hA0] at y3
  -- Step 4
  have eb1_6 : rd m6 b nh = rd m b nh := rd_congr fun q h1 h2 => by
    rw [y2 q (by omega), fr5 q (by omega) (by omega)]
  have eb0_6 : rd m6 (b + nh) nh = rd m (b + nh) nh := rd_congr fun q h1 h2 => by
    rw [y2 q (by omega), fr5 q (by omega) (by omega)]
  have et1_6 : rd m6 (t + nh) nh = rd m5 (t + nh) nh := rd_congr fun q h1 h2 => y2 q (by omega)
  have st4 := absDiff_spec L m6 (t + nh) (b + nh) b nh (by unfold Disjoint2; omega) (by unfold Disjoint2; omega)
    (by rw [eb0_6]; exact vb0) (by rw [eb1_6]; exact vb1) (by rw [et1_6]; exact vt05.2)
  obtain ⟨z1, z2, z3⟩ := st4
  change ValidLimbs L.mask (rd m7 (t + nh) nh) at z1
  change ∀ q, _ → m7 q = m6 q at z2
  change (cb = 1 ∧ limbsVal L.mask (rd m7 (t + nh) nh) + _ = _) ∨ (cb = -1 ∧ limbsVal L.mask (rd m7 (t + nh) nh) + _ = _) ∨ (cb = 0 ∧ _) at z3
  rw [eb1_6, eb0_6, ← hB1, ← hB0] at z3
  have et0_7 : rd m7 t nh = rd m6 t nh := rd_congr fun q h1 h2 => z2 q (by omega)
  -- Step 5
  obtain ⟨k1, k2, k3⟩ := ih m7 (t + 2 * nh) t (t + nh) (t + (2 * nh + 2 * nh)) (by unfold Disjoint2; omega)
    (by unfold Disjoint2; omega) (by unfold Disjoint2; omega) (by unfold Disjoint2; omega) (by unfold Disjoint2; omega)
    (by rw [et0_7]; exact y1) z1
  rw [et0_7] at k1
  change limbsVal L.mask (rd m8 (t + 2 * nh) (2 * nh)) = _ at k1
  change ValidLimbs L.mask (rd m8 (t + 2 * nh) (2 * nh)) at k2
  change ∀ q, _ → _ → m8 q = m7 q at k3
  set DA := limbsVal L.mask (rd m6 t nh) with hDA
  set DB := limbsVal L.mask (rd m7 (t + nh) nh) with hDB
  have er8 : rd m8 r (4 * nh) = rd m5 r (4 * nh) := rd_congr fun q h1 h2 => by
    rw [k3 q (by omega) (by omega), z2 q (by omega), y2 q (by omega)]
  have fr8 : ∀ q, (q < r ∨ r + 4 * nh ≤ q) → (q < t ∨ t + 8 * nh ≤ q) → m8 q = m q := fun q h1 h2 => by
    rw [k3 q (by omega) (by omega), z2 q (by omega), y2 q (by omega), fr5 q (by omega) (by omega)]
  -- the target
  have target : limbsVal L.mask (rd m a (2 * nh)) * limbsVal L.mask (rd m b (2 * nh))
      = A1 * B1 * (H * H) + (A1 * B0 + A0 * B1) * H + A0 * B0 := by rw [eA, eB]; ring
  have tlt : limbsVal L.mask (rd m a (2 * nh)) * limbsVal L.mask (rd m b (2 * nh)) < H * H * (H * H) := by
    have : L.mask ^ (2 * nh) = H * H := by rw [two_mul, pow_add]
    have h1 : limbsVal L.mask (rd m a (2 * nh)) < H * H := by
      have := limbsVal_lt (B := L.mask) (l := rd m a (2 * nh)) (by rw [ea, validLimbs_append]; exact ⟨va1, va0⟩)
      rw [rd_length] at this; omega
    have h2 : limbsVal L.mask (rd m b (2 * nh)) < H * H := by
      have := limbsVal_lt (B := L.mask) (l := rd m b (2 * nh)) (by rw [eb, validLimbs_append]; exact ⟨vb1, vb0⟩)
      rw [rd_length] at this; omega
    exact Nat.mul_lt_mul'' h1 h2
  rw [target] at tlt ⊢
  rw [show 2 * (2 * nh) = 4 * nh by omega, show 4 * (2 * nh) = 8 * nh by omega]
  have x1' : limbsVal L.mask (rd m8 r (4 * nh)) = A1 * B1 * (H * H) + A0 * B0 + A1 * B1 * H + A0 * B0 * H := by
    rw [er8, x1]
  have x2' : ValidLimbs L.mask (rd m8 r (nh + 2 * nh + nh)) := by rw [split, er8, ← split]; exact x2
  -- Step 6: same signs
  have plus : A1 * B1 + A0 * B0 + DA * DB = A1 * B0 + A0 * B1 →
      limbsVal L.mask (rd (propCarry L r0 nh s3.1 s3.2) r (4 * nh)) = A1 * B1 * (H * H) + (A1 * B0 + A0 * B1) * H + A0 * B0 ∧
      ValidLimbs L.mask (rd (propCarry L r0 nh s3.1 s3.2) r (4 * nh)) ∧
      ∀ q, (q < r ∨ r + 4 * nh ≤ q) → (q < t ∨ t + 8 * nh ≤ q) → propCarry L r0 nh s3.1 s3.2 q = m q := by
    intro heq
    have e : A1 * B1 * (H * H) + A0 * B0 + A1 * B1 * H + A0 * B0 * H + DA * DB * H
        = A1 * B1 * (H * H) + (A1 * B0 + A0 * B1) * H + A0 * B0 := by rw [← heq]; ring
    have := addMiddle_spec L m8 r nh (2 * nh) nh (t + 2 * nh) (DA * DB) (by unfold Disjoint2; omega) x2' k2 k1
      (by rw [split, x1', hHH, ← hH]; omega)
    obtain ⟨f1, f2, f3⟩ := this
    rw [split] at f1 f2
    rw [split, x1', ← hH, e] at f1
    exact ⟨f1, f2, fun q h1 h2 => (f3 q (by omega)).trans (fr8 q h1 h2)⟩
  have minus : A1 * B1 + A0 * B0 = A1 * B0 + A0 * B1 + DA * DB →
      limbsVal L.mask (rd (propBorrow L r0 nh s3'.1 s3'.2) r (4 * nh)) = A1 * B1 * (H * H) + (A1 * B0 + A0 * B1) * H + A0 * B0 ∧
      ValidLimbs L.mask (rd (propBorrow L r0 nh s3'.1 s3'.2) r (4 * nh)) ∧
      ∀ q, (q < r ∨ r + 4 * nh ≤ q) → (q < t ∨ t + 8 * nh ≤ q) → propBorrow L r0 nh s3'.1 s3'.2 q = m q := by
    intro heq
    have e : A1 * B1 * (H * H) + A0 * B0 + A1 * B1 * H + A0 * B0 * H
        = A1 * B1 * (H * H) + (A1 * B0 + A0 * B1) * H + A0 * B0 + DA * DB * H := by
      have : (A1 * B1 + A0 * B0) * H = (A1 * B0 + A0 * B1 + DA * DB) * H := by rw [heq]
      linarith
    have := subMiddle_spec L m8 r nh (2 * nh) nh (t + 2 * nh) (DA * DB) (by unfold Disjoint2; omega) x2' k2 k1
      (by rw [split, x1', ← hH]; omega)
    obtain ⟨f1, f2, f3⟩ := this
    rw [split] at f1 f2
    rw [split, x1', ← hH, e] at f1
    exact ⟨Nat.add_right_cancel f1, f2, fun q h1 h2 => (f3 q (by omega)).trans (fr8 q h1 h2)⟩
  have zero : A1 * B1 + A0 * B0 = A1 * B0 + A0 * B1 →
      limbsVal L.mask (rd m8 r (4 * nh)) = A1 * B1 * (H * H) + (A1 * B0 + A0 * B1) * H + A0 * B0 ∧
      ValidLimbs L.mask (rd m8 r (4 * nh)) ∧
      ∀ q, (q < r ∨ r + 4 * nh ≤ q) → (q < t ∨ t + 8 * nh ≤ q) → m8 q = m q := by
    intro heq
    refine ⟨?_, by rw [← split]; exact x2', fr8⟩
    rw [x1', ← heq]; ring
  rcases y3 with ⟨c1, d1⟩ | ⟨c1, d1⟩ | ⟨c1, d1⟩ <;> rcases z3 with ⟨c2, d2⟩ | ⟨c2, d2⟩ | ⟨c2, d2⟩ <;>
    rw [c1, c2] at hF
  · rw [if_pos (by norm_num)] at hF; rw [← hF]; exact plus (by rw [← d1, ← d2]; ring)
  · rw [if_neg (by norm_num), if_pos (by norm_num)] at hF; rw [← hF]; exact minus (by rw [← d1, ← d2]; ring)
  · rw [if_neg (by norm_num), if_neg (by norm_num)] at hF; rw [← hF]; exact zero (by rw [← d1, d2])
  · rw [if_neg (by norm_num), if_pos (by norm_num)] at hF; rw [← hF]; exact minus (by rw [← d1, ← d2]; ring)
  · rw [if_pos (by norm_num)] at hF; rw [← hF]; exact plus (by rw [← d1, ← d2]; ring)
  · rw [if_neg (by norm_num), if_neg (by norm_num)] at hF; rw [← hF]; exact zero (by rw [← d1, d2])
  · rw [if_neg (by norm_num), if_neg (by norm_num)] at hF; rw [← hF]; exact zero (by rw [d1, ← d2]; ring)
  · rw [if_neg (by norm_num), if_neg (by norm_num)] at hF; rw [← hF]; exact zero (by rw [d1, ← d2]; ring)
  · rw [if_neg (by norm_num), if_neg (by norm_num)] at hF; rw [← hF]; exact zero (by rw [d1, d2])

theorem kara_ok (L : Limb) {n : Nat} (h : Halvable n) (h0 : 0 < n) : KaraOk L n := by
  induction h with
  | base hle => exact kara_base L h0 hle
  | @dbl k _ ih =>
    by_cases hle : 2 * k ≤ 32
    · exact kara_base L h0 hle
    · exact kara_step L (by omega) hle (ih (by omega))

end WD
