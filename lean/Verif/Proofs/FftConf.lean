import Verif.Proofs.FftReal
import Verif.Proofs.FftFill
import Verif.Spec.Bounds
/-
  The transforms work inside their array.
-/
namespace WD

theorem Confined.comp {K : Type} {n : ℕ} {f g : (ℕ → K) → ℕ → K} (hf : Confined n f) (hg : Confined n g) : Confined n (fun d => f (g d)) :=
  ⟨fun d i hi => (hf.1 _ i hi).trans (hg.1 d i hi), fun d d' h i hi => hf.2 _ _ (fun i hi => hg.2 d d' h i hi) i hi⟩

theorem Confined.update {K : Type} {n k : ℕ} (hk : k < n) (g : (ℕ → K) → K) (hg : ∀ d d' : ℕ → K, (∀ i, i < n → d i = d' i) → g d = g d') :
    Confined n (fun d => Function.update d k (g d)) := by
  refine ⟨fun d i hi => Function.update_of_ne (by omega) _ _, fun d d' h i hi => ?_⟩
  beta_reduce
  by_cases e : i = k
  · subst e; rw [Function.update_self, Function.update_self, hg d d' h]
  · rw [Function.update_of_ne e, Function.update_of_ne e, h i hi]

namespace FOps
variable {K : Type} (O : FOps K)

/-- A function given by its effect on the pairs (cells 2k, 2k+1), k < n. -/
theorem confined_of_cx {n : ℕ} {f : (ℕ → K) → ℕ → K} {T : (ℕ → K × K) → ℕ → K × K} (h1 : ∀ d k, k < n → cx (f d) 0 k = T (cx d 0) k)
    (h2 : ∀ d i, 2 * n ≤ i → f d i = d i) (hT : ∀ z z' : ℕ → K × K, (∀ k, k < n → z k = z' k) → ∀ k, k < n → T z k = T z' k) : Confined (2 * n) f := by
  refine ⟨h2, fun d d' h i hi => ?_⟩
  have key : cx (f d) 0 (i / 2) = cx (f d') 0 (i / 2) := by
    rw [h1 d _ (by omega), h1 d' _ (by omega)]
    refine hT _ _ (fun k hk => ?_) _ (by omega)
    unfold cx
    rw [h _ (by omega), h _ (by omega)]
  unfold cx at key
  rw [Prod.mk.injEq] at key
  rcases Nat.mod_two_eq_zero_or_one i with e | e
  · have := key.1
    rwa [show 0 + 2 * (i / 2) = i by omega] at this
  · have := key.2
    rwa [show 0 + (2 * (i / 2) + 1) = i by omega] at this

theorem cfft_confined (fwd : Bool) (m : ℕ) : Confined (16 * 2 ^ m) (O.cfft fwd m) := by
  have e : 16 * 2 ^ m = 2 * (8 * 2 ^ m) := by ring
  have e8 : 8 * 2 ^ m = 2 ^ (m + 3) := by rw [pow_add]; ring
  rw [e]
  refine confined_of_cx (T := fun z => O.dlf fwd m (fun k => z (brev (m + 3) k))) (fun d k hk => (O.cfft_spec fwd m d).1 k hk)
    (fun d i hi => (O.cfft_spec fwd m d).2 i (by omega)) (fun z z' h k hk => O.dlf_congr fwd m (fun k _ => h _ ?_) hk)
  rw [e8]
  exact brev_lt _ _

theorem rLoop_confined (fwd : Bool) (M : ℕ) (hM : 0 < M) : Confined (4 * M) (O.rLoop fwd (4 * M)) := by
  rw [show 4 * M = 2 * (2 * M) by ring]
  refine confined_of_cx (T := fun z k => if k = 0 then z 0 else if k = M then z M else
      if k < M then (O.unpk fwd (O.rtw fwd (4 * M) (k - 1)) (z k) (z (2 * M - k))).1
      else (O.unpk fwd (O.rtw fwd (4 * M) (2 * M - k - 1)) (z (2 * M - k)) (z k)).2) (fun d k hk => ?_) (fun d i hi => ?_) (fun z z' h k hk => ?_)
  · obtain ⟨h1, h2, h3, -⟩ := O.rLoop_spec fwd M hM d
    rw [show 2 * (2 * M) = 4 * M by ring]
    split
    · next e => rw [e, h2]
    · next e =>
      split
      · next e2 => rw [e2, h3]
      · next e2 =>
        split
        · next e3 => exact (h1 k (by omega) e3).1
        · next e3 =>
          have := (h1 (2 * M - k) (by omega) (by omega)).2
          rwa [show 2 * M - (2 * M - k) = k by omega] at this
  · rw [show 2 * (2 * M) = 4 * M by ring] at hi ⊢
    exact (O.rLoop_spec fwd M hM d).2.2.2 i hi
  · split
    · exact h 0 (by omega)
    · split
      · exact h M (by omega)
      · split
        · rw [h k hk, h (2 * M - k) (by omega)]
        · rw [h k hk, h (2 * M - k) (by omega)]

theorem two_pow_ge (m : ℕ) : 16 ≤ 16 * 2 ^ m := by have := Nat.one_le_two_pow (n := m); omega

theorem rfftF_confined (m : ℕ) : Confined (16 * 2 ^ m) (O.rfftF m) := by
  have h16 := two_pow_ge m
  have hr : Confined (16 * 2 ^ m) (O.rLoop true (16 * 2 ^ m)) := by
    have := O.rLoop_confined true (4 * 2 ^ m) (by positivity)
    rwa [show 4 * (4 * 2 ^ m) = 16 * 2 ^ m by ring] at this
  have hc := hr.comp (O.cfft_confined true m)
  refine Confined.comp (f := fun d => Function.update (Function.update d 0 (O.add (d 0) (d 1))) 1 (O.sub (d 0) (Function.update d 0 (O.add (d 0) (d 1)) 1))) ?_ hc
  have e : ∀ d : ℕ → K, Function.update d 0 (O.add (d 0) (d 1)) 1 = d 1 := fun d => Function.update_of_ne (by omega) _ _
  refine ⟨fun d i hi => ?_, fun d d' h i hi => ?_⟩
  · beta_reduce
    rw [Function.update_of_ne (by omega), Function.update_of_ne (by omega)]
  · beta_reduce
    rw [e, e]
    by_cases e1 : i = 1
    · subst e1; rw [Function.update_self, Function.update_self, h 0 (by omega), h 1 (by omega)]
    · rw [Function.update_of_ne e1, Function.update_of_ne e1]
      by_cases e0 : i = 0
      · subst e0; rw [Function.update_self, Function.update_self, h 0 (by omega), h 1 (by omega)]
      · rw [Function.update_of_ne e0, Function.update_of_ne e0, h i hi]

theorem rfftB_confined (m : ℕ) : Confined (16 * 2 ^ m) (O.rfftB m) := by
  have h16 := two_pow_ge m
  have hr : Confined (16 * 2 ^ m) (O.rLoop false (16 * 2 ^ m)) := by
    have := O.rLoop_confined false (4 * 2 ^ m) (by positivity)
    rwa [show 4 * (4 * 2 ^ m) = 16 * 2 ^ m by ring] at this
  refine (O.cfft_confined false m).comp (Confined.comp
    (f := fun d => Function.update (Function.update d 0 (O.half (O.add (d 0) (d 1)))) 1 (O.half (O.sub (d 0) (Function.update d 0 (O.half (O.add (d 0) (d 1))) 1)))) ?_ hr)
  have e : ∀ d : ℕ → K, Function.update d 0 (O.half (O.add (d 0) (d 1))) 1 = d 1 := fun d => Function.update_of_ne (by omega) _ _
  refine ⟨fun d i hi => ?_, fun d d' h i hi => ?_⟩
  · beta_reduce
    rw [Function.update_of_ne (by omega), Function.update_of_ne (by omega)]
  · beta_reduce
    rw [e, e]
    by_cases e1 : i = 1
    · subst e1; rw [Function.update_self, Function.update_self, h 0 (by omega), h 1 (by omega)]
    · rw [Function.update_of_ne e1, Function.update_of_ne e1]
      by_cases e0 : i = 0
      · subst e0; rw [Function.update_self, Function.update_self, h 0 (by omega), h 1 (by omega)]
      · rw [Function.update_of_ne e0, Function.update_of_ne e0, h i hi]

/-- The product in transform space leaves the cells from 2n on. -/
theorem pointwise_out (n : ℕ) (hn : 0 < n) (a b : ℕ → K) (i : ℕ) (hi : 2 * n ≤ i) : O.pointwise (2 * n) a b i = a i := by
  unfold pointwise
  rw [show 2 * n / 2 = n by omega]
  have key : ∀ (l : List ℕ) (s : ℕ → K), (∀ k ∈ l, k + 1 < n) → l.foldl (fun a k =>
      let j := 2 * k + 2
      let t := a j
      let a := Function.update a j (O.sub (O.mul t (b j)) (O.mul (a (j + 1)) (b (j + 1))))
      Function.update a (j + 1) (O.add (O.mul t (b (j + 1))) (O.mul (a (j + 1)) (b j)))) s i = s i := by
    intro l
    induction l with
    | nil => intro s _; rfl
    | cons k l ih =>
      intro s h
      rw [List.foldl_cons, ih _ (fun k hk => h k (List.mem_cons_of_mem _ hk))]
      have := h k List.mem_cons_self
      rw [Function.update_of_ne (by omega), Function.update_of_ne (by omega)]
  dsimp only
  rw [key _ _ (fun k hk => by have := List.mem_range.mp hk; omega), Function.update_of_ne (by omega), Function.update_of_ne (by omega)]

theorem pointwise_congr (n : ℕ) {a a' b b' : ℕ → K} (ha : ∀ i, i < 2 * n → a i = a' i) (hb : ∀ i, i < 2 * n → b i = b' i) (i : ℕ) (hi : i < 2 * n) :
    O.pointwise (2 * n) a b i = O.pointwise (2 * n) a' b' i := by
  have key : cx (O.pointwise (2 * n) a b) 0 (i / 2) = cx (O.pointwise (2 * n) a' b') 0 (i / 2) := by
    obtain ⟨p1, p2⟩ := O.pointwise_spec n a b
    obtain ⟨q1, q2⟩ := O.pointwise_spec n a' b'
    rcases Nat.eq_zero_or_pos (i / 2) with e | e
    · rw [e, p1, q1, ha 0 (by omega), ha 1 (by omega), hb 0 (by omega), hb 1 (by omega)]
    · rw [p2 _ e (by omega), q2 _ e (by omega)]
      unfold cx
      rw [ha _ (by omega), ha _ (by omega), hb _ (by omega), hb _ (by omega)]
  unfold cx at key
  rw [Prod.mk.injEq] at key
  rcases Nat.mod_two_eq_zero_or_one i with e | e
  · have := key.1
    rwa [show 0 + 2 * (i / 2) = i by omega] at this
  · have := key.2
    rwa [show 0 + (2 * (i / 2) + 1) = i by omega] at this

end FOps

theorem releaseLoop_congr (L : Limb) {n n' : ℕ → ℕ} : ∀ (k carry : ℕ), (∀ j, j < 2 * k → n j = n' j) → releaseLoop L n k carry = releaseLoop L n' k carry := by
  intro k
  induction k with
  | zero => intro _ _; rfl
  | succ k ih =>
    intro carry h
    rw [releaseLoop, releaseLoop, h (2 * k) (by omega)]
    have e : (if 2 * k ≠ 0 then n (2 * k - 1) else 0) = if 2 * k ≠ 0 then n' (2 * k - 1) else 0 := by
      split
      · exact h _ (by omega)
      · rfl
    rw [e, ih _ (fun j hj => h j (by omega))]

end WD
