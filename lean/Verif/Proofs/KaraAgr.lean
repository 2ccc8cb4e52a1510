import Verif.Proofs.Kara
/-
  The Karatsuba routine does not depend on what its result range and its temporary range contain beforehand.
-/
namespace WD

/-- The memories agree on the addresses in S. -/
def Agr (S : Nat → Prop) (m m' : Mem) : Prop := ∀ x, S x → m x = m' x

theorem Agr.mono {S T : Nat → Prop} {m m' : Mem} (h : Agr S m m') (hT : ∀ x, T x → S x) : Agr T m m' := fun x hx => h x (hT x hx)

theorem Agr.set {S : Nat → Prop} {m m' : Mem} (h : Agr S m m') (p v : Nat) : Agr S (m.set p v) (m'.set p v) := by
  intro x hx
  unfold Mem.set
  split
  · rfl
  · exact h x hx

theorem Agr.set2 {S : Nat → Prop} {m m' : Mem} (h : Agr S m m') (p : Nat) {v v' : Nat} (e : v = v') : Agr S (m.set p v) (m'.set p v') := by
  rw [e]; exact h.set p v'

theorem Agr.rd {S : Nat → Prop} {m m' : Mem} (h : Agr S m m') {p n : Nat} (hs : ∀ x, p ≤ x → x < p + n → S x) : WD.rd m p n = WD.rd m' p n :=
  rd_congr fun q h1 h2 => h q (hs q h1 h2)

theorem Agr.store {S : Nat → Prop} : ∀ (l : List Nat) {m m' : Mem} (p : Nat), Agr S m m' → Agr (fun x => S x ∨ (p ≤ x ∧ x < p + l.length)) (m.store p l) (m'.store p l)
  | [], m, m', p, h => by
    intro x hx
    simp only [List.length_nil] at hx
    exact h x (hx.resolve_right (by omega))
  | y :: ys, m, m', p, h => by
    have h1 : Agr (fun x => S x ∨ x = p) (m.set p y) (m'.set p y) := by
      intro x hx
      unfold Mem.set
      split
      · rfl
      · rename_i hne; exact h x (hx.resolve_right hne)
    refine (Agr.store ys (p + 1) h1).mono fun x hx => ?_
    simp only [List.length_cons] at hx
    rcases hx with hx | hx
    · exact Or.inl (Or.inl hx)
    · by_cases e : x = p
      · exact Or.inl (Or.inr e)
      · exact Or.inr ⟨by omega, by omega⟩

theorem addMem_agr (L : Limb) {S : Nat → Prop} {r u v : Nat} : ∀ (n : Nat) (m m' : Mem) (c : Nat), Agr S m m' → (∀ x, u ≤ x → x < u + n → S x) → (∀ x, v ≤ x → x < v + n → S x) →
    Agr S (addMem L r u v n m c).1 (addMem L r u v n m' c).1 ∧ (addMem L r u v n m c).2 = (addMem L r u v n m' c).2
  | 0, m, m', c, h, _, _ => ⟨h, rfl⟩
  | n + 1, m, m', c, h, hu, hv => by
    simp only [addMem]
    rw [h (u + n) (hu _ (by omega) (by omega)), h (v + n) (hv _ (by omega) (by omega))]
    exact addMem_agr L n _ _ _ (h.set _ _) (fun x h1 h2 => hu x h1 (by omega)) (fun x h1 h2 => hv x h1 (by omega))

theorem subMem_agr (L : Limb) {S : Nat → Prop} {r u v : Nat} : ∀ (n : Nat) (m m' : Mem) (c : Nat), Agr S m m' → (∀ x, u ≤ x → x < u + n → S x) → (∀ x, v ≤ x → x < v + n → S x) →
    Agr S (subMem L r u v n m c).1 (subMem L r u v n m' c).1 ∧ (subMem L r u v n m c).2 = (subMem L r u v n m' c).2
  | 0, m, m', c, h, _, _ => ⟨h, rfl⟩
  | n + 1, m, m', c, h, hu, hv => by
    simp only [subMem]
    rw [h (u + n) (hu _ (by omega) (by omega)), h (v + n) (hv _ (by omega) (by omega))]
    exact subMem_agr L n _ _ _ (h.set _ _) (fun x h1 h2 => hu x h1 (by omega)) (fun x h1 h2 => hv x h1 (by omega))

theorem propCarry_agr (L : Limb) {S : Nat → Prop} {t : Nat} : ∀ (n : Nat) (m m' : Mem) (c : Nat), Agr S m m' → (∀ x, t ≤ x → x < t + n → S x) →
    Agr S (propCarry L t n m c) (propCarry L t n m' c)
  | 0, m, m', c, h, _ => h
  | n + 1, m, m', c, h, ht => by
    simp only [propCarry]
    rw [h (t + n) (ht _ (by omega) (by omega))]
    split
    · exact h
    · exact propCarry_agr L n _ _ _ (h.set _ _) (fun x h1 h2 => ht x h1 (by omega))

theorem propBorrow_agr (L : Limb) {S : Nat → Prop} {t : Nat} : ∀ (n : Nat) (m m' : Mem) (c : Nat), Agr S m m' → (∀ x, t ≤ x → x < t + n → S x) →
    Agr S (propBorrow L t n m c) (propBorrow L t n m' c)
  | 0, m, m', c, h, _ => h
  | n + 1, m, m', c, h, ht => by
    simp only [propBorrow]
    rw [h (t + n) (ht _ (by omega) (by omega))]
    split
    · exact h
    · split
      · exact propBorrow_agr L n _ _ _ (h.set _ _) (fun x h1 h2 => ht x h1 (by omega))
      · exact propBorrow_agr L n _ _ _ (h.set _ _) (fun x h1 h2 => ht x h1 (by omega))

/-- The product of n by n limbs has 2n limbs, whatever the limbs are. -/
def SchoolLen (L : Limb) : Prop := ∀ a b : List Nat, 0 < a.length → a.length = b.length → (schoolMul L a b).length = 2 * a.length

theorem kara_agr (L : Limb) (hs : SchoolLen L) {n : Nat} (h : Halvable n) (h0 : 0 < n) : ∀ (S : Nat → Prop) (m m' : Mem) (r a b t : Nat), Agr S m m' →
    (∀ x, a ≤ x → x < a + n → S x) → (∀ x, b ≤ x → x < b + n → S x) →
    Agr (fun x => S x ∨ (r ≤ x ∧ x < r + 2 * n)) (kara L m r a b n t) (kara L m' r a b n t) := by
  have base : ∀ {n : Nat}, 0 < n → n ≤ 32 → ∀ (S : Nat → Prop) (m m' : Mem) (r a b t : Nat), Agr S m m' →
      (∀ x, a ≤ x → x < a + n → S x) → (∀ x, b ≤ x → x < b + n → S x) →
      Agr (fun x => S x ∨ (r ≤ x ∧ x < r + 2 * n)) (kara L m r a b n t) (kara L m' r a b n t) := by
    intro n h0 hle S m m' r a b t hm ha hb
    rw [kara, dif_pos hle, kara, dif_pos hle]
    unfold schoolMem
    rw [hm.rd ha, hm.rd hb]
    have := Agr.store (schoolMul L (rd m' a n) (rd m' b n)) r hm
    rw [hs _ _ (by simpa using h0) (by simp), rd_length] at this
    exact this
  induction h with
  | base hle => exact base h0 hle
  | @dbl k _ ih =>
    by_cases hle : 2 * k ≤ 32
    · exact base h0 hle
    · have ih := ih (by omega)
      intro S m m' r a b t hm ha hb
      rw [kara, dif_neg hle, kara, dif_neg hle]
      rw [show 2 * k / 2 = k by omega]
      dsimp only
      have g1 := ih S m m' r a b t hm (fun x h1 h2 => ha x h1 (by omega)) (fun x h1 h2 => hb x h1 (by omega))
      generalize kara L m r a b k t = m1 at *
      generalize kara L m' r a b k t = m1' at *
      have g2 := ih _ m1 m1' (r + 2 * k) (a + k) (b + k) t g1 (fun x h1 h2 => Or.inl (ha x (by omega) (by omega))) (fun x h1 h2 => Or.inl (hb x (by omega) (by omega)))
      generalize kara L m1 (r + 2 * k) (a + k) (b + k) k t = m2 at *
      generalize kara L m1' (r + 2 * k) (a + k) (b + k) k t = m2' at *
      have e3 : rd m2 r (2 * k * 2) = rd m2' r (2 * k * 2) := g2.rd fun x h1 h2 => by
        by_cases e : x < r + 2 * k
        · exact Or.inl (Or.inr ⟨h1, e⟩)
        · exact Or.inr ⟨by omega, by omega⟩
      have g3 := Agr.store (rd m2' r (2 * k * 2)) t g2
      rw [e3]
      rw [rd_length] at g3
      -- all addresses known from here on
      have g3 : Agr (fun x => S x ∨ (r ≤ x ∧ x < r + 4 * k) ∨ (t ≤ x ∧ x < t + 4 * k)) (m2.store t (rd m2' r (2 * k * 2))) (m2'.store t (rd m2' r (2 * k * 2))) :=
        g3.mono fun x hx => by
          rcases hx with hx | hx | hx
          · exact Or.inl (Or.inl (Or.inl hx))
          · by_cases e : x < r + 2 * k
            · exact Or.inl (Or.inl (Or.inr ⟨hx.1, e⟩))
            · exact Or.inl (Or.inr ⟨by omega, by omega⟩)
          · exact Or.inr ⟨by omega, by omega⟩
      generalize m2.store t (rd m2' r (2 * k * 2)) = m3 at *
      generalize m2'.store t (rd m2' r (2 * k * 2)) = m3' at *
      clear g1 g2 e3
      have inS : ∀ {x}, S x → S x ∨ (r ≤ x ∧ x < r + 4 * k) ∨ (t ≤ x ∧ x < t + 4 * k) := Or.inl
      have inR : ∀ {x}, r ≤ x → x < r + 4 * k → S x ∨ (r ≤ x ∧ x < r + 4 * k) ∨ (t ≤ x ∧ x < t + 4 * k) := fun h1 h2 => Or.inr (Or.inl ⟨h1, h2⟩)
      have inT : ∀ {x}, t ≤ x → x < t + 4 * k → S x ∨ (r ≤ x ∧ x < r + 4 * k) ∨ (t ≤ x ∧ x < t + 4 * k) := fun h1 h2 => Or.inr (Or.inr ⟨h1, h2⟩)
      have g4 := addMem_agr L (r := r + k) (u := r + k) (v := t) (2 * k) m3 m3' 0 g3 (fun x h1 h2 => inR (by omega) (by omega)) (fun x h1 h2 => inT (by omega) (by omega))
      rw [g4.2]
      have g4 := propCarry_agr L (t := r) k _ _ (addMem L (r + k) (r + k) t (2 * k) m3' 0).2 g4.1 (fun x h1 h2 => inR (by omega) (by omega))
      generalize propCarry L r k (addMem L (r + k) (r + k) t (2 * k) m3 0).1 (addMem L (r + k) (r + k) t (2 * k) m3' 0).2 = m4 at *
      generalize propCarry L r k (addMem L (r + k) (r + k) t (2 * k) m3' 0).1 (addMem L (r + k) (r + k) t (2 * k) m3' 0).2 = m4' at *
      have g5 := addMem_agr L (r := r + k) (u := r + k) (v := t + 2 * k) (2 * k) m4 m4' 0 g4 (fun x h1 h2 => inR (by omega) (by omega)) (fun x h1 h2 => inT (by omega) (by omega))
      rw [g5.2]
      have g5 := propCarry_agr L (t := r) k _ _ (addMem L (r + k) (r + k) (t + 2 * k) (2 * k) m4' 0).2 g5.1 (fun x h1 h2 => inR (by omega) (by omega))
      generalize propCarry L r k (addMem L (r + k) (r + k) (t + 2 * k) (2 * k) m4 0).1 (addMem L (r + k) (r + k) (t + 2 * k) (2 * k) m4' 0).2 = m5 at *
      generalize propCarry L r k (addMem L (r + k) (r + k) (t + 2 * k) (2 * k) m4' 0).1 (addMem L (r + k) (r + k) (t + 2 * k) (2 * k) m4' 0).2 = m5' at *
      have sA1 : ∀ x, a ≤ x → x < a + k → S x ∨ (r ≤ x ∧ x < r + 4 * k) ∨ (t ≤ x ∧ x < t + 4 * k) := fun x h1 h2 => inS (ha x h1 (by omega))
      have sA0 : ∀ x, a + k ≤ x → x < a + k + k → S x ∨ (r ≤ x ∧ x < r + 4 * k) ∨ (t ≤ x ∧ x < t + 4 * k) := fun x h1 h2 => inS (ha x (by omega) (by omega))
      have sB1 : ∀ x, b ≤ x → x < b + k → S x ∨ (r ≤ x ∧ x < r + 4 * k) ∨ (t ≤ x ∧ x < t + 4 * k) := fun x h1 h2 => inS (hb x h1 (by omega))
      have sB0 : ∀ x, b + k ≤ x → x < b + k + k → S x ∨ (r ≤ x ∧ x < r + 4 * k) ∨ (t ≤ x ∧ x < t + 4 * k) := fun x h1 h2 => inS (hb x (by omega) (by omega))
      rw [g5.rd sA1, g5.rd sA0]
      generalize compareRanges (rd m5' a k) (rd m5' (a + k) k) = ca at *
      have g6 : Agr (fun x => S x ∨ (r ≤ x ∧ x < r + 4 * k) ∨ (t ≤ x ∧ x < t + 4 * k))
          (if ca = 1 then (subMem L t a (a + k) k m5 0).1 else if ca = -1 then (subMem L t (a + k) a k m5 0).1 else m5)
          (if ca = 1 then (subMem L t a (a + k) k m5' 0).1 else if ca = -1 then (subMem L t (a + k) a k m5' 0).1 else m5') := by
        split
        · exact (subMem_agr L k _ _ _ g5 sA1 sA0).1
        · split
          · exact (subMem_agr L k _ _ _ g5 sA0 sA1).1
          · exact g5
      generalize (if ca = 1 then (subMem L t a (a + k) k m5 0).1 else if ca = -1 then (subMem L t (a + k) a k m5 0).1 else m5) = m6 at *
      generalize (if ca = 1 then (subMem L t a (a + k) k m5' 0).1 else if ca = -1 then (subMem L t (a + k) a k m5' 0).1 else m5') = m6' at *
      rw [g6.rd sB1, g6.rd sB0]
      generalize compareRanges (rd m6' (b + k) k) (rd m6' b k) = cb at *
      have g7 : Agr (fun x => S x ∨ (r ≤ x ∧ x < r + 4 * k) ∨ (t ≤ x ∧ x < t + 4 * k))
          (if cb = 1 then (subMem L (t + k) (b + k) b k m6 0).1 else if cb = -1 then (subMem L (t + k) b (b + k) k m6 0).1 else m6)
          (if cb = 1 then (subMem L (t + k) (b + k) b k m6' 0).1 else if cb = -1 then (subMem L (t + k) b (b + k) k m6' 0).1 else m6') := by
        split
        · exact (subMem_agr L k _ _ _ g6 sB0 sB1).1
        · split
          · exact (subMem_agr L k _ _ _ g6 sB1 sB0).1
          · exact g6
      generalize (if cb = 1 then (subMem L (t + k) (b + k) b k m6 0).1 else if cb = -1 then (subMem L (t + k) b (b + k) k m6 0).1 else m6) = m7 at *
      generalize (if cb = 1 then (subMem L (t + k) (b + k) b k m6' 0).1 else if cb = -1 then (subMem L (t + k) b (b + k) k m6' 0).1 else m6') = m7' at *
      have g8 := (ih _ m7 m7' (t + 2 * k) t (t + k) (t + (2 * k + 2 * k)) g7 (fun x h1 h2 => inT h1 (by omega)) (fun x h1 h2 => inT (by omega) (by omega))).mono
        (T := fun x => S x ∨ (r ≤ x ∧ x < r + 4 * k) ∨ (t ≤ x ∧ x < t + 4 * k)) fun x hx => Or.inl hx
      generalize kara L m7 (t + 2 * k) t (t + k) k (t + (2 * k + 2 * k)) = m8 at *
      generalize kara L m7' (t + 2 * k) t (t + k) k (t + (2 * k + 2 * k)) = m8' at *
      have fin : ∀ {x y : Mem}, Agr (fun x => S x ∨ (r ≤ x ∧ x < r + 4 * k) ∨ (t ≤ x ∧ x < t + 4 * k)) x y → Agr (fun x => S x ∨ (r ≤ x ∧ x < r + 2 * (2 * k))) x y :=
        fun h => h.mono fun x hx => by
          rcases hx with hx | hx
          · exact Or.inl hx
          · exact inR hx.1 (by omega)
      apply fin
      split
      · have g9 := addMem_agr L (r := r + k) (u := r + k) (v := t + 2 * k) (2 * k) m8 m8' 0 g8 (fun x h1 h2 => inR (by omega) (by omega)) (fun x h1 h2 => inT (by omega) (by omega))
        rw [g9.2]
        exact propCarry_agr L (t := r) k _ _ _ g9.1 (fun x h1 h2 => inR (by omega) (by omega))
      · split
        · have g9 := subMem_agr L (r := r + k) (u := r + k) (v := t + 2 * k) (2 * k) m8 m8' 0 g8 (fun x h1 h2 => inR (by omega) (by omega)) (fun x h1 h2 => inT (by omega) (by omega))
          rw [g9.2]
          exact propBorrow_agr L (t := r) k _ _ _ g9.1 (fun x h1 h2 => inR (by omega) (by omega))
        · exact g8

end WD
