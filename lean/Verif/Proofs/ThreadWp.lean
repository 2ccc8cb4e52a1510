import Verif.Proofs.Thread
/-
  Rules for the programs of `Model/Thread.lean`: what a program does to the memory when it runs alone, with its accesses inside given footprints.
-/
namespace WD
namespace Thr
open Prog Loc

/-- The program part q, started in m, accesses only R0 (reads) and W0 (writes) and goes on in a memory with property P. -/
def Wp (R0 W0 : Loc → Bool) (q : Prog → Prog) (m : Mem) (P : Mem → Prop) : Prop :=
  ∃ m', (∀ R W : Loc → Bool, ∀ k, (∀ l, R0 l = true → R l = true) → (∀ l, W0 l = true → W l = true) → exec R W (q k) m = exec R W k m') ∧ P m'

variable {R0 W0 : Loc → Bool} {m : Mem} {P : Mem → Prop}

theorem Wp.fin (h : P m) : Wp R0 W0 (fun k => k) m P := ⟨m, fun _ _ _ _ _ => rfl, h⟩

theorem Wp.load {l : Loc} {b : Int → Prog → Prog} (hl : R0 l = true) (h : Wp R0 W0 (b (m l)) m P) : Wp R0 W0 (fun k => load l fun v => b v k) m P := by
  obtain ⟨m', h1, h2⟩ := h
  refine ⟨m', fun R W k hR hW => ?_, h2⟩
  rw [← h1 R W k hR hW]
  simp only [exec, if_pos (hR l hl)]

theorem Wp.stor {l : Loc} {v : Int} {q : Prog → Prog} (hl : W0 l = true) (h : Wp R0 W0 q (m.set l v) P) : Wp R0 W0 (fun k => stor l v (q k)) m P := by
  obtain ⟨m', h1, h2⟩ := h
  refine ⟨m', fun R W k hR hW => ?_, h2⟩
  rw [← h1 R W k hR hW]
  simp only [exec, if_pos (hW l hl)]

theorem Wp.ite {C : Prop} [Decidable C] {a b : Prog → Prog} (h1 : C → Wp R0 W0 a m P) (h2 : ¬C → Wp R0 W0 b m P) :
    Wp R0 W0 (fun k => if C then a k else b k) m P := by
  by_cases h : C
  · simp only [if_pos h]; exact h1 h
  · simp only [if_neg h]; exact h2 h

theorem Wp.seq {q1 q2 : Prog → Prog} (h : Wp R0 W0 q1 m (fun m1 => Wp R0 W0 q2 m1 P)) : Wp R0 W0 (fun k => q1 (q2 k)) m P := by
  obtain ⟨m1, h1, m2, h2, h3⟩ := h
  exact ⟨m2, fun R W k hR hW => by rw [h1 R W _ hR hW, h2 R W k hR hW], h3⟩

theorem Wp.mono {q : Prog → Prog} {Q : Mem → Prop} (h : Wp R0 W0 q m Q) (hPQ : ∀ m', Q m' → P m') : Wp R0 W0 q m P := by
  obtain ⟨m', h1, h2⟩ := h
  exact ⟨m', h1, hPQ m' h2⟩

theorem Wp.wide {R1 W1 : Loc → Bool} {q : Prog → Prog} (h : Wp R0 W0 q m P) (hR : ∀ l, R0 l = true → R1 l = true) (hW : ∀ l, W0 l = true → W1 l = true) :
    Wp R1 W1 q m P := by
  obtain ⟨m', h1, h2⟩ := h
  exact ⟨m', fun R W k a b => h1 R W k (fun l hl => a l (hR l hl)) (fun l hl => b l (hW l hl)), h2⟩

/-- Nothing outside the written footprint changes. -/
theorem Wp.frame {q : Prog → Prog} (h : Wp R0 W0 q m P) : Wp R0 W0 q m (fun m' => P m' ∧ ∀ l, W0 l = false → m' l = m l) := by
  obtain ⟨m', h1, h2⟩ := h
  refine ⟨m', h1, h2, exec_frame (R := R0) (W := W0) (q done) m m' ?_⟩
  rw [h1 R0 W0 done (fun _ a => a) (fun _ a => a)]
  rfl

/-- n limbs of array a from d on overwritten. -/
def setR (m : Mem) (a d n : Nat) (f : Nat → Int) : Mem
  | limb b i => if b = a ∧ d ≤ i ∧ i < d + n then f (i - d) else m (limb b i)
  | exp o => m (exp o)
  | neg o => m (neg o)
  | prec o => m (prec o)

theorem setR_zero (m : Mem) (a d : Nat) (f : Nat → Int) : setR m a d 0 f = m := by
  funext l; cases l with
  | limb b i => simp only [setR]; rw [if_neg (by omega)]
  | _ => rfl

theorem setR_congr {m : Mem} {a d n : Nat} {f g : Nat → Int} (h : ∀ i, i < n → f i = g i) : setR m a d n f = setR m a d n g := by
  funext l
  cases l with
  | limb b i =>
    simp only [setR]
    split
    · exact h _ (by omega)
    · rfl
  | _ => rfl

theorem setR_succ (m : Mem) (a d n : Nat) (f : Nat → Int) : setR (m.set (limb a d) (f 0)) a (d + 1) n (fun i => f (i + 1)) = setR m a d (n + 1) f := by
  funext l
  cases l with
  | limb b i =>
    simp only [setR, Mem.set, Loc.limb.injEq]
    by_cases hb : b = a
    · subst hb
      by_cases hi : i = d
      · subst hi; simp
      · by_cases h1 : d + 1 ≤ i ∧ i < d + 1 + n
        · rw [if_pos ⟨rfl, h1⟩, if_pos ⟨rfl, by omega, by omega⟩]; congr 1; omega
        · rw [if_neg (fun h => h1 h.2), if_neg (fun h => hi h.2), if_neg (fun h => h1 (by omega))]
    · rw [if_neg (fun h => hb h.1), if_neg (fun h => hb h.1), if_neg (fun h => hb h.1)]
  | _ => simp [setR, Mem.set]

theorem setR_last (m : Mem) (a d n : Nat) (f : Nat → Int) : setR (m.set (limb a (d + n)) (f n)) a d n f = setR m a d (n + 1) f := by
  funext l
  cases l with
  | limb b i =>
    simp only [setR, Mem.set, Loc.limb.injEq]
    by_cases hb : b = a
    · subst hb
      by_cases hi : i = d + n
      · subst hi; simp
      · by_cases h1 : d ≤ i ∧ i < d + n
        · rw [if_pos ⟨rfl, h1⟩, if_pos ⟨rfl, by omega, by omega⟩]
        · rw [if_neg (fun h => h1 h.2), if_neg (fun h => hi h.2), if_neg (fun h => h1 (by omega))]
    · rw [if_neg (fun h => hb h.1), if_neg (fun h => hb h.1), if_neg (fun h => hb h.1)]
  | _ => simp [setR, Mem.set]

theorem Wp.copyF {src dst : Nat} {q : Prog → Prog} : ∀ (n s d : Nat) (m : Mem), (src = dst → d ≤ s) → (∀ i, i < n → R0 (limb src (s + i)) = true) →
    (∀ i, i < n → W0 (limb dst (d + i)) = true) → Wp R0 W0 q (setR m dst d n fun i => m (limb src (s + i))) P → Wp R0 W0 (fun k => copyF src s dst d n (q k)) m P
  | 0, s, d, m, _, _, _, h => by rw [setR_zero] at h; exact h
  | n + 1, s, d, m, ha, hr, hw, h => by
    refine Wp.load (b := fun v k => Prog.stor (limb dst d) v (Thr.copyF src (s + 1) dst (d + 1) n (q k))) (hr 0 (by omega)) (Wp.stor (hw 0 (by omega)) ?_)
    refine Wp.copyF n (s + 1) (d + 1) _ (fun e => by have := ha e; omega) (fun i hi => ?_) (fun i hi => ?_) ?_
    · rw [show s + 1 + i = s + (i + 1) by omega]; exact hr _ (by omega)
    · rw [show d + 1 + i = d + (i + 1) by omega]; exact hw _ (by omega)
    · rw [← setR_succ] at h
      rw [setR_congr (g := fun i => (m.set (limb dst d) (m (limb src (s + 0)))) (limb src (s + 1 + i)))] at h
      · exact h
      · intro i hi
        have : ¬ (limb src (s + 1 + i) = limb dst d) := by
          intro e; injection e with e1 e2; have := ha e1; omega
        simp only [Mem.set, if_neg this]
        congr 2; omega

theorem Wp.copyB {src dst s d : Nat} {q : Prog → Prog} : ∀ (n : Nat) (m : Mem), (src = dst → s ≤ d) → (∀ i, i < n → R0 (limb src (s + i)) = true) →
    (∀ i, i < n → W0 (limb dst (d + i)) = true) → Wp R0 W0 q (setR m dst d n fun i => m (limb src (s + i))) P → Wp R0 W0 (fun k => copyB src s dst d n (q k)) m P
  | 0, m, _, _, _, h => by rw [setR_zero] at h; exact h
  | n + 1, m, ha, hr, hw, h => by
    refine Wp.load (b := fun v k => Prog.stor (limb dst (d + n)) v (Thr.copyB src s dst d n (q k))) (hr n (by omega)) (Wp.stor (hw n (by omega)) ?_)
    refine Wp.copyB n _ ha (fun i hi => hr i (by omega)) (fun i hi => hw i (by omega)) ?_
    rw [← setR_last] at h
    have e : setR (m.set (limb dst (d + n)) (m (limb src (s + n)))) dst d n (fun i => m (limb src (s + i))) =
        setR (m.set (limb dst (d + n)) (m (limb src (s + n)))) dst d n (fun i => (m.set (limb dst (d + n)) (m (limb src (s + n)))) (limb src (s + i))) := by
      refine setR_congr fun i hi => ?_
      have : ¬ (limb src (s + i) = limb dst (d + n)) := by
        intro e; injection e with e1 e2; have := ha e1; omega
      simp only [Mem.set, if_neg this]
    rw [← e]; exact h

theorem Wp.fillZ {dst : Nat} {q : Prog → Prog} : ∀ (n d : Nat) (m : Mem), (∀ i, i < n → W0 (limb dst (d + i)) = true) →
    Wp R0 W0 q (setR m dst d n fun _ => 0) P → Wp R0 W0 (fun k => fillZ dst d n (q k)) m P
  | 0, d, m, _, h => by rw [setR_zero] at h; exact h
  | n + 1, d, m, hw, h => by
    refine Wp.stor (hw 0 (by omega)) ?_
    refine Wp.fillZ n (d + 1) _ (fun i hi => ?_) ?_
    · rw [show d + 1 + i = d + (i + 1) by omega]; exact hw _ (by omega)
    · rw [← setR_succ] at h; exact h

theorem Wp.storeP {a : Nat} {q : Prog → Prog} : ∀ (l : List Nat) (d : Nat) (m : Mem), (∀ i, i < l.length → W0 (limb a (d + i)) = true) →
    Wp R0 W0 q (setR m a d l.length fun i => (l.getD i 0 : Nat)) P → Wp R0 W0 (fun k => storeP a d l (q k)) m P
  | [], d, m, _, h => by rw [List.length_nil, setR_zero] at h; exact h
  | x :: xs, d, m, hw, h => by
    refine Wp.stor (hw 0 (by simp)) ?_
    refine Wp.storeP xs (d + 1) _ (fun i hi => ?_) ?_
    · rw [show d + 1 + i = d + (i + 1) by omega]; exact hw _ (by simp; omega)
    · rw [List.length_cons, ← setR_succ] at h; exact h

/-- n limbs of array a from i on. -/
def arr (m : Mem) (a : Nat) : Nat → Nat → List Nat
  | _, 0 => []
  | i, n + 1 => (m (limb a i)).toNat :: arr m a (i + 1) n

theorem arr_length (m : Mem) (a : Nat) : ∀ n i, (arr m a i n).length = n
  | 0, _ => rfl
  | n + 1, i => by simp [arr, arr_length m a n]

theorem arr_getElem (m : Mem) (a : Nat) : ∀ n i j (h : j < (arr m a i n).length), (arr m a i n)[j] = (m (limb a (i + j))).toNat
  | 0, _, _, h => by simp [arr] at h
  | n + 1, i, 0, h => by simp [arr]
  | n + 1, i, j + 1, h => by
    simp only [arr, List.getElem_cons_succ]
    rw [arr_getElem m a n (i + 1) j (by simpa [arr] using h)]
    congr 3; omega

theorem arr_range (m : Mem) (a n : Nat) : (List.range n).map (fun i => (m (limb a i)).toNat) = arr m a 0 n := by
  apply List.ext_getElem
  · simp [arr_length]
  · intro i h1 h2
    rw [arr_getElem]; simp

theorem arr_snoc (m : Mem) (a i n : Nat) : arr m a i (n + 1) = arr m a i n ++ [(m (limb a (i + n))).toNat] := by
  apply List.ext_getElem
  · simp [arr_length]
  · intro j h1 h2
    rw [arr_getElem, List.getElem_append]
    split
    · rw [arr_getElem]
    · have : j = n := by simp [arr_length] at h1 h2 ⊢; rename_i h; rw [arr_length] at h; omega
      simp [this]

theorem arr_take (m : Mem) (a i : Nat) {n p : Nat} (h : p ≤ n) : (arr m a i n).take p = arr m a i p := by
  apply List.ext_getElem
  · simp [arr_length, h]
  · intro j h1 h2
    rw [List.getElem_take, arr_getElem, arr_getElem]

theorem arr_congr {m m' : Mem} {a a' i i' n : Nat} (h : ∀ j, j < n → m (limb a (i + j)) = m' (limb a' (i' + j))) : arr m a i n = arr m' a' i' n := by
  apply List.ext_getElem
  · simp [arr_length]
  · intro j h1 h2
    rw [arr_getElem, arr_getElem, h j (by simpa [arr_length] using h1)]

theorem arr_setR_ne {m : Mem} {a b d n i N : Nat} {f : Nat → Int} (h : b ≠ a) : arr (setR m a d n f) b i N = arr m b i N :=
  arr_congr fun j _ => by simp [setR, h]

theorem arr_setR {m : Mem} {a d n N : Nat} {f : Nat → Int} (h : d + n ≤ N) :
    arr (setR m a d n f) a 0 N = (arr m a 0 N).take d ++ ((List.range n).map fun i => (f i).toNat) ++ (arr m a 0 N).drop (d + n) := by
  apply List.ext_getElem
  · simp [arr_length]; omega
  · intro j h1 h2
    rw [arr_length] at h1
    rw [arr_getElem]
    simp only [List.getElem_append, List.length_append, List.length_take, arr_length, List.length_map, List.length_range, Nat.zero_add, setR, true_and]
    have hm : min d N = d := by omega
    simp only [hm]
    by_cases h3 : j < d
    · rw [if_neg (by omega), dif_pos (by omega), dif_pos h3, List.getElem_take, arr_getElem]; simp
    · by_cases h4 : j < d + n
      · rw [if_pos ⟨by omega, h4⟩, dif_pos h4, dif_neg h3]; simp
      · rw [if_neg (by omega), dif_neg h4, List.getElem_drop, arr_getElem]
        congr 3; omega

theorem getD_snoc_last {l : List Nat} {z n : Nat} (h : l.length = n) : (l ++ [z]).getD n 0 = z := by
  rw [List.getD_eq_getElem?_getD, List.getElem?_append_right (by omega)]; simp [h]

theorem getD_snoc_lt {l : List Nat} {z i : Nat} (h : i < l.length) : (l ++ [z]).getD i 0 = l.getD i 0 := by
  rw [List.getD_eq_getElem?_getD, List.getElem?_append_left h, ← List.getD_eq_getElem?_getD]

theorem addC_snoc (L : Limb) : ∀ (as bs : List Nat) (x y cin : Nat), as.length = bs.length → addC L cin (as ++ [x]) (bs ++ [y]) =
    ((addC L (addStep L x y cin).2 as bs).1 ++ [(addStep L x y cin).1], (addC L (addStep L x y cin).2 as bs).2)
  | [], [], x, y, cin, _ => by simp [addC]
  | a :: as, b :: bs, x, y, cin, h => by
    have := addC_snoc L as bs x y cin (by simpa using h)
    simp [addC, this]
  | [], _ :: _, _, _, _, h => by simp at h
  | _ :: _, [], _, _, _, h => by simp at h

theorem addC_len (L : Limb) : ∀ (as bs : List Nat) (cin : Nat), as.length = bs.length → (addC L cin as bs).1.length = as.length
  | [], [], _, _ => by simp [addC]
  | a :: as, b :: bs, cin, h => by simp [addC, addC_len L as bs cin (by simpa using h)]
  | [], _ :: _, _, h => by simp at h
  | _ :: _, [], _, h => by simp at h

theorem subC_snoc (L : Limb) : ∀ (as bs : List Nat) (x y cin : Nat), as.length = bs.length → subC L cin (as ++ [x]) (bs ++ [y]) =
    ((subC L (subStep L x y cin).2 as bs).1 ++ [(subStep L x y cin).1], (subC L (subStep L x y cin).2 as bs).2)
  | [], [], x, y, cin, _ => by simp [subC]
  | a :: as, b :: bs, x, y, cin, h => by
    have := subC_snoc L as bs x y cin (by simpa using h)
    simp [subC, this]
  | [], _ :: _, _, _, _, h => by simp at h
  | _ :: _, [], _, _, _, h => by simp at h

theorem subC_len (L : Limb) : ∀ (as bs : List Nat) (cin : Nat), as.length = bs.length → (subC L cin as bs).1.length = as.length
  | [], [], _, _ => by simp [subC]
  | a :: as, b :: bs, cin, h => by simp [subC, subC_len L as bs cin (by simpa using h)]
  | [], _ :: _, _, h => by simp at h
  | _ :: _, [], _, h => by simp at h

theorem arr_set_ge {m : Mem} {a r j : Nat} {v : Int} : arr (m.set (limb r j) v) a 0 j = arr m a 0 j :=
  arr_congr fun q hq => by
    have : ¬ (limb a (0 + q) = limb r j) := by intro e; injection e with e1 e2; omega
    simp only [Mem.set, if_neg this]

theorem Wp.addP {L : Limb} {r u v : Nat} {q : Nat → Prog → Prog} : ∀ (n carry : Nat) (m : Mem), (∀ i, i < n → R0 (limb u i) = true) → (∀ i, i < n → R0 (limb v i) = true) →
    (∀ i, i < n → W0 (limb r i) = true) → Wp R0 W0 (q (addC L carry (arr m u 0 n) (arr m v 0 n)).2)
      (setR m r 0 n fun i => ((addC L carry (arr m u 0 n) (arr m v 0 n)).1.getD i 0 : Nat)) P →
    Wp R0 W0 (fun k => addP L r u v n carry fun cy => q cy k) m P
  | 0, carry, m, _, _, _, h => by rw [setR_zero] at h; exact h
  | n + 1, carry, m, hu, hv, hw, h => by
    refine Wp.load (b := fun a k => Prog.load (limb v n) fun b => Prog.stor (limb r n) ((addStep L a.toNat b.toNat carry).1 : Nat) (Thr.addP L r u v n (addStep L a.toNat b.toNat carry).2 fun cy => q cy k))
      (hu n (by omega)) ?_
    refine Wp.load (b := fun b k => Prog.stor (limb r n) ((addStep L (m (limb u n)).toNat b.toNat carry).1 : Nat) (Thr.addP L r u v n (addStep L (m (limb u n)).toNat b.toNat carry).2 fun cy => q cy k))
      (hv n (by omega)) ?_
    refine Wp.stor (hw n (by omega)) ?_
    refine Wp.addP n _ _ (fun i hi => hu i (by omega)) (fun i hi => hv i (by omega)) (fun i hi => hw i (by omega)) ?_
    rw [arr_set_ge, arr_set_ge]
    rw [arr_snoc, arr_snoc, addC_snoc L _ _ _ _ _ (by rw [arr_length, arr_length])] at h
    simp only [Nat.zero_add] at h
    have hlen := addC_len L (arr m u 0 n) (arr m v 0 n) (addStep L (m (limb u n)).toNat (m (limb v n)).toNat carry).2 (by rw [arr_length, arr_length])
    rw [arr_length] at hlen
    rw [← setR_last, getD_snoc_last hlen, setR_congr (g := fun i => (((addC L (addStep L (m (limb u n)).toNat (m (limb v n)).toNat carry).2 (arr m u 0 n) (arr m v 0 n)).1.getD i 0 : Nat) : Int))
      (fun i hi => by rw [getD_snoc_lt (by omega)])] at h
    simp only [Nat.zero_add] at h
    exact h

theorem Wp.subP {L : Limb} {r u v : Nat} {q : Nat → Prog → Prog} : ∀ (n carry : Nat) (m : Mem), (∀ i, i < n → R0 (limb u i) = true) → (∀ i, i < n → R0 (limb v i) = true) →
    (∀ i, i < n → W0 (limb r i) = true) → Wp R0 W0 (q (subC L carry (arr m u 0 n) (arr m v 0 n)).2)
      (setR m r 0 n fun i => ((subC L carry (arr m u 0 n) (arr m v 0 n)).1.getD i 0 : Nat)) P →
    Wp R0 W0 (fun k => subP L r u v n carry fun cy => q cy k) m P
  | 0, carry, m, _, _, _, h => by rw [setR_zero] at h; exact h
  | n + 1, carry, m, hu, hv, hw, h => by
    refine Wp.load (b := fun a k => Prog.load (limb v n) fun b => Prog.stor (limb r n) ((subStep L a.toNat b.toNat carry).1 : Nat) (Thr.subP L r u v n (subStep L a.toNat b.toNat carry).2 fun cy => q cy k))
      (hu n (by omega)) ?_
    refine Wp.load (b := fun b k => Prog.stor (limb r n) ((subStep L (m (limb u n)).toNat b.toNat carry).1 : Nat) (Thr.subP L r u v n (subStep L (m (limb u n)).toNat b.toNat carry).2 fun cy => q cy k))
      (hv n (by omega)) ?_
    refine Wp.stor (hw n (by omega)) ?_
    refine Wp.subP n _ _ (fun i hi => hu i (by omega)) (fun i hi => hv i (by omega)) (fun i hi => hw i (by omega)) ?_
    rw [arr_set_ge, arr_set_ge]
    rw [arr_snoc, arr_snoc, subC_snoc L _ _ _ _ _ (by rw [arr_length, arr_length])] at h
    simp only [Nat.zero_add] at h
    have hlen := subC_len L (arr m u 0 n) (arr m v 0 n) (subStep L (m (limb u n)).toNat (m (limb v n)).toNat carry).2 (by rw [arr_length, arr_length])
    rw [arr_length] at hlen
    rw [← setR_last, getD_snoc_last hlen, setR_congr (g := fun i => (((subC L (subStep L (m (limb u n)).toNat (m (limb v n)).toNat carry).2 (arr m u 0 n) (arr m v 0 n)).1.getD i 0 : Nat) : Int))
      (fun i hi => by rw [getD_snoc_lt (by omega)])] at h
    simp only [Nat.zero_add] at h
    exact h

theorem Wp.cmpP {a b : Nat} {q : Int → Prog → Prog} : ∀ (n i : Nat), (∀ j, j < n → R0 (limb a (i + j)) = true) → (∀ j, j < n → R0 (limb b (i + j)) = true) →
    Wp R0 W0 (q (compareRanges (arr m a i n) (arr m b i n))) m P → Wp R0 W0 (fun k => cmpP a b i n fun r => q r k) m P
  | 0, i, _, _, h => h
  | n + 1, i, ha, hb, h => by
    refine Wp.load (b := fun x k => Prog.load (limb b i) fun y => if x.toNat ≠ y.toNat then q (if x.toNat > y.toNat then 1 else -1) k else Thr.cmpP a b (i + 1) n fun r => q r k) (ha 0 (by omega)) ?_
    refine Wp.load (b := fun y k => if (m (limb a i)).toNat ≠ y.toNat then q (if (m (limb a i)).toNat > y.toNat then 1 else -1) k else Thr.cmpP a b (i + 1) n fun r => q r k) (hb 0 (by omega)) ?_
    refine Wp.ite (fun hc => ?_) (fun hc => ?_)
    · simp only [arr, compareRanges, if_pos hc] at h; exact h
    · simp only [arr, compareRanges, if_neg hc] at h
      exact Wp.cmpP n (i + 1) (fun j hj => by rw [show i + 1 + j = i + (j + 1) by omega]; exact ha _ (by omega))
        (fun j hj => by rw [show i + 1 + j = i + (j + 1) by omega]; exact hb _ (by omega)) h

theorem Wp.findP {a : Nat} : ∀ (n i : Nat) (q : Nat → Prog → Prog), (∀ j, j < n → R0 (limb a (i + j)) = true) →
    Wp R0 W0 (q (DW.leadZeros (arr m a i n))) m P → Wp R0 W0 (fun k => findP a i n fun z => q z k) m P
  | 0, i, q, _, h => h
  | n + 1, i, q, ha, h => by
    refine Wp.load (b := fun x k => if x.toNat ≠ 0 then q 0 k else Thr.findP a (i + 1) n fun z => q (z + 1) k) (ha 0 (by omega)) ?_
    refine Wp.ite (fun hc => ?_) (fun hc => ?_)
    · simp only [arr, DW.leadZeros, if_neg hc] at h; exact h
    · simp only [arr, DW.leadZeros, if_pos (not_not.mp hc)] at h
      exact Wp.findP n (i + 1) (fun z => q (z + 1)) (fun j hj => by rw [show i + 1 + j = i + (j + 1) by omega]; exact ha _ (by omega)) h

theorem Wp.allP {f : Nat → Bool} {a : Nat} {q : Bool → Prog → Prog} : ∀ (n i : Nat), (∀ j, j < n → R0 (limb a (i + j)) = true) →
    Wp R0 W0 (q ((arr m a i n).all f)) m P → Wp R0 W0 (fun k => allP f a i n fun z => q z k) m P
  | 0, i, _, h => h
  | n + 1, i, ha, h => by
    refine Wp.load (b := fun x k => if f x.toNat then Thr.allP f a (i + 1) n fun z => q z k else q false k) (ha 0 (by omega)) ?_
    refine Wp.ite (fun hc => ?_) (fun hc => ?_)
    · simp only [arr, List.all_cons, hc, Bool.true_and] at h
      exact Wp.allP n (i + 1) (fun j hj => by rw [show i + 1 + j = i + (j + 1) by omega]; exact ha _ (by omega)) h
    · simp only [arr, List.all_cons, hc, Bool.false_and] at h; exact h

end Thr
end WD
