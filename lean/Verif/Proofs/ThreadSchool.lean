import Verif.Proofs.ThreadAdd
import Verif.Proofs.School
import Verif.Proofs.Alias
/-
  `operator-=` and the schoolbook multiplication as sequences of memory accesses.
-/
namespace WD
namespace Thr
open Prog Loc

variable (c : Cfg)

theorem Wp.tight {R1 W1 R0 W0 : Loc → Bool} {q : Prog → Prog} {m : Mem} {Q P : Mem → Prop} (h : Wp R1 W1 q m Q) (hR : ∀ l, R1 l = true → R0 l = true)
    (hW : ∀ l, W1 l = true → W0 l = true) (k : ∀ m', Q m' → (∀ l, W1 l = false → m' l = m l) → P m') : Wp R0 W0 q m P :=
  (h.frame.wide hR hW).mono fun m' ⟨a, b⟩ => k m' a b

theorem obj_congr {m m' : Mem} {o : Nat} (h : ∀ l, objL c.N o l = true → m' l = m l) : obj c m' o = obj c m o := by
  rw [obj_eq, obj_eq, h _ (by simp [objL]), h _ (by simp [objL]), h _ (by simp [objL])]
  have : arr m' o 0 c.N = arr m o 0 c.N := arr_congr fun j hj => h _ (by simp [objL, hj])
  rw [this]

theorem objL_ne {N o u : Nat} (h : o ≠ u) {l : Loc} (hl : objL N o l = true) : objL N u l = false := by
  cases l <;> simp [objL] at hl ⊢ <;> omega

theorem objL_buf {N n o t : Nat} (h : o ≠ t) {l : Loc} (hl : objL N o l = true) : bufL n t l = false := by
  cases l <;> simp [objL, bufL] at hl ⊢ <;> omega

theorem wp_neg {R0 W0 : Loc → Bool} {m : Mem} {P : Mem → Prop} {u : Nat} (ru : ∀ l, objL c.N u l = true → R0 l = true) (wu : ∀ l, objL c.N u l = true → W0 l = true)
    (h : ∀ m', obj c m' u = (obj c m u).negate → (∀ l, objL c.N u l = false → m' l = m l) → P m') : Wp R0 W0 (negP u) m P := by
  refine Wp.tight (R1 := objL c.N u) (W1 := objL c.N u) (Q := fun m' => obj c m' u = (obj c m u).negate) ?_ ru wu (fun m' a b => h m' a b)
  have := N_pos c
  unfold negP DW.negate
  refine Wp.load (by simp [objL, this]) (Wp.ite (fun e => ?_) (fun e => Wp.fin ?_))
  · rw [if_neg (fun hc => e ((isZero_obj c m u).mp hc))]
    refine Wp.load (by simp [objL]) (Wp.stor (by simp [objL]) (Wp.fin ?_))
    rw [obj_eq, obj_eq, arr_set_neg]
    simp [Mem.set, ofB]
    by_cases h : m (neg u) = 0 <;> simp [h]
  · rw [if_pos ((isZero_obj c m u).mpr (by simpa using e))]

/-- The locations a statement on u with operand v and temporary t reads. -/
def rdL (N t u v : Nat) (l : Loc) : Bool := objL N u l || objL N v l || bufL N t l
/-- The locations it writes. -/
def wrL (N t u : Nat) (l : Loc) : Bool := objL N u l || bufL N t l

theorem addAt_at (st : DW.Store) (u v : Nat) : DW.addAt c st u v u = DW.addAssign c (st u) (st v) := by
  by_cases h : v = u
  · subst h; rw [addAt_self, dupd_same]
  · rw [addAt_eq c st h, dupd_same]

theorem wp_add_t {m : Mem} {t u v : Nat} (htu : t ≠ u) (htv : t ≠ v) (pu : (obj c m u).prec ≤ c.N) :
    Wp (rdL c.N t u v) (wrL c.N t u) (addProg c t u v) m fun m' => obj c m' u = DW.addAssign c (obj c m u) (obj c m v) :=
  wp_add c htu htv (fun l h => by simp [rdL, h]) (fun l h => by simp [rdL, h]) (fun l h => by simp [rdL, h]) (fun l h => by simp [wrL, h]) (fun l h => by simp [wrL, h]) pu
    fun _ h => h

theorem wp_sub_t {m : Mem} {t u v : Nat} (htu : t ≠ u) (htv : t ≠ v) (pu : (obj c m u).prec ≤ c.N) :
    Wp (rdL c.N t u v) (wrL c.N t u) (subProg c t u v) m fun m' => obj c m' u = DW.subAt c (obj c m) u v u := by
  unfold subProg
  refine Wp.seq (q1 := negP u) (wp_neg c (fun l h => by simp [rdL, h]) (fun l h => by simp [wrL, h]) fun m1 a1 b1 => ?_)
  refine Wp.seq (q1 := addProg c t u v) ((wp_add_t c htu htv ?_).mono fun m2 a2 => ?_)
  · rw [a1]; unfold DW.negate; split <;> exact pu
  · refine wp_neg c (fun l h => by simp [rdL, h]) (fun l h => by simp [wrL, h]) fun m3 a3 _ => ?_
    have hv : obj c m1 v = DW.negAt (obj c m) u v := by
      unfold DW.negAt DW.upd
      by_cases h : v = u
      · rw [if_pos h, h, a1]
      · rw [if_neg h]
        exact obj_congr c fun l hl => b1 l (objL_ne h hl)
    have hu : obj c m1 u = DW.negAt (obj c m) u u := by rw [a1]; unfold DW.negAt DW.upd; rw [if_pos rfl]
    rw [a3, a2, hv, hu, ← addAt_at]
    unfold DW.subAt
    generalize DW.addAt c (DW.negAt (obj c m) u) u v = st
    unfold DW.negAt DW.upd
    rw [if_pos rfl]

/-- `rowLoop` with a carry coming in. -/
def rowC (L : Limb) (ai cin : Nat) : List Nat → List Nat → List Nat × Nat
  | r :: rs, b :: bs =>
    let o := rowC L ai cin rs bs
    let c2 := ((o.2 + (ai * b) % L.D) % L.D + r) % L.D
    ((c2 % L.mask) % L.W :: o.1, c2 / L.mask)
  | _, _ => ([], cin)

theorem rowC_zero (L : Limb) (ai : Nat) : ∀ r b : List Nat, rowC L ai 0 r b = rowLoop L ai r b
  | r :: rs, b :: bs => by simp [rowC, rowLoop, rowC_zero L ai rs bs]
  | [], _ => by simp [rowC, rowLoop]
  | _ :: _, [] => by simp [rowC, rowLoop]

theorem rowC_len (L : Limb) (ai cin : Nat) : ∀ r b : List Nat, r.length = b.length → (rowC L ai cin r b).1.length = r.length
  | r :: rs, b :: bs, h => by simp [rowC, rowC_len L ai cin rs bs (by simpa using h)]
  | [], [], _ => rfl
  | [], _ :: _, h => by simp at h
  | _ :: _, [], h => by simp at h

theorem rowC_snoc (L : Limb) (ai : Nat) : ∀ (r b : List Nat) (x y cin : Nat), r.length = b.length → rowC L ai cin (r ++ [x]) (b ++ [y]) =
    ((rowC L ai ((((cin + (ai * y) % L.D) % L.D + x) % L.D) / L.mask) r b).1 ++ [((((cin + (ai * y) % L.D) % L.D + x) % L.D) % L.mask) % L.W],
      (rowC L ai ((((cin + (ai * y) % L.D) % L.D + x) % L.D) / L.mask) r b).2)
  | [], [], x, y, cin, _ => by simp [rowC]
  | a :: as, b :: bs, x, y, cin, h => by
    have := rowC_snoc L ai as bs x y cin (by simpa using h)
    simp [rowC, this]
  | [], _ :: _, _, _, _, h => by simp at h
  | _ :: _, [], _, _, _, h => by simp at h

variable {R0 W0 : Loc → Bool} {P : Mem → Prop}

theorem Wp.rowP {L : Limb} {r b ai i : Nat} {q : Nat → Prog → Prog} (hrb : b ≠ r) : ∀ (n carry : Nat) (m : Mem), (∀ j, j < n → R0 (limb b j) = true) →
    (∀ j, j < n → R0 (limb r (i + 1 + j)) = true) → (∀ j, j < n → W0 (limb r (i + 1 + j)) = true) →
    Wp R0 W0 (q (rowC L ai carry (arr m r (i + 1) n) (arr m b 0 n)).2) (setR m r (i + 1) n fun j => ((rowC L ai carry (arr m r (i + 1) n) (arr m b 0 n)).1.getD j 0 : Nat)) P →
    Wp R0 W0 (fun k => rowP L r b ai i n carry fun cy => q cy k) m P
  | 0, carry, m, _, _, _, h => by rw [setR_zero] at h; exact h
  | n + 1, carry, m, hb, hr, hw, h => by
    have e1 : i + n + 1 = i + 1 + n := by omega
    refine Wp.load (b := fun bj k => Prog.load (limb r (i + n + 1)) fun x => Prog.stor (limb r (i + n + 1)) ((((carry + (ai * bj.toNat) % L.D) % L.D + x.toNat) % L.D % L.mask) % L.W : Nat)
      (Thr.rowP L r b ai i n (((carry + (ai * bj.toNat) % L.D) % L.D + x.toNat) % L.D / L.mask) fun cy => q cy k)) (hb n (by omega)) ?_
    refine Wp.load (b := fun x k => Prog.stor (limb r (i + n + 1)) ((((carry + (ai * (m (limb b n)).toNat) % L.D) % L.D + x.toNat) % L.D % L.mask) % L.W : Nat)
      (Thr.rowP L r b ai i n (((carry + (ai * (m (limb b n)).toNat) % L.D) % L.D + x.toNat) % L.D / L.mask) fun cy => q cy k)) (by rw [e1]; exact hr n (by omega)) ?_
    refine Wp.stor (by rw [e1]; exact hw n (by omega)) ?_
    refine Wp.rowP hrb n _ _ (fun j hj => hb j (by omega)) (fun j hj => hr j (by omega)) (fun j hj => hw j (by omega)) ?_
    have f1 : ∀ v, arr (m.set (limb r (i + n + 1)) v) b 0 n = arr m b 0 n := fun v => arr_congr fun j hj => by simp [Mem.set, hrb]
    have f2 : ∀ v, arr (m.set (limb r (i + n + 1)) v) r (i + 1) n = arr m r (i + 1) n := fun v => arr_congr fun j hj => by
      have : ¬ (i + 1 + j = i + n + 1) := by omega
      simp [Mem.set, this]
    rw [f1, f2]
    rw [arr_snoc, arr_snoc, rowC_snoc L _ _ _ _ _ _ (by rw [arr_length, arr_length]), Nat.zero_add] at h
    rw [e1]
    generalize hcn : (((carry + (ai * (m (limb b n)).toNat) % L.D) % L.D + (m (limb r (i + 1 + n))).toNat) % L.D) = x at h ⊢
    have hlen := rowC_len L ai (x / L.mask) (arr m r (i + 1) n) (arr m b 0 n) (by rw [arr_length, arr_length])
    rw [arr_length] at hlen
    rw [← setR_last, getD_snoc_last hlen, setR_congr (g := fun j => (((rowC L ai (x / L.mask) (arr m r (i + 1) n) (arr m b 0 n)).1.getD j 0 : Nat) : Int))
      (fun j hj => by rw [getD_snoc_lt (by omega)])] at h
    exact h

theorem mulRows_len (L : Limb) (b : List Nat) : ∀ a : List Nat, (mulRows L b a).length = b.length + a.length
  | [] => by simp [mulRows]
  | ai :: as => by
    have := mulRows_len L b as
    have h2 : ((mulRows L b as).take b.length).length = b.length := by simp [this]
    have h3 := rowC_len L ai 0 _ _ h2
    rw [rowC_zero, h2] at h3
    simp [mulRows, h3, this]; omega

theorem Wp.rowsP {L : Limb} {r a b n : Nat} {m0 : Mem} {q : Prog → Prog} (hra : a ≠ r) (hrb : b ≠ r) (ra : ∀ j, j < n → R0 (limb a j) = true) (rb : ∀ j, j < n → R0 (limb b j) = true)
    (rr : ∀ j, j < 2 * n → R0 (limb r j) = true) (wr : ∀ j, j < 2 * n → W0 (limb r j) = true)
    (h : ∀ m', arr m' r 0 (2 * n) = mulRows L (arr m0 b 0 n) (arr m0 a 0 n) → (∀ l, bufL (2 * n) r l = false → m' l = m0 l) → Wp R0 W0 q m' P) :
    ∀ (i : Nat) (m : Mem), i ≤ n → arr m r i (2 * n - i) = mulRows L (arr m0 b 0 n) ((arr m0 a 0 n).drop i) → (∀ l, bufL (2 * n) r l = false → m l = m0 l) →
      Wp R0 W0 (fun k => rowsP L r a b n i (q k)) m P
  | 0, m, _, h1, h2 => h m (by simpa using h1) h2
  | i + 1, m, hi, h1, h2 => by
    have fa : ∀ j, m (limb a j) = m0 (limb a j) := fun j => h2 _ (by simp [bufL, hra])
    have fb : ∀ j, m (limb b j) = m0 (limb b j) := fun j => h2 _ (by simp [bufL, hrb])
    refine Wp.load (b := fun ai k => Thr.rowP L r b ai.toNat i n 0 fun carry => Prog.stor (limb r i) (carry % L.W : Nat) (Thr.rowsP L r a b n i (q k))) (ra i (by omega)) ?_
    refine Wp.rowP hrb n 0 m rb (fun j hj => rr _ (by omega)) (fun j hj => wr _ (by omega)) ?_
    refine Wp.stor (wr i (by omega)) ?_
    refine Wp.rowsP hra hrb ra rb rr wr h i _ (by omega) ?_ ?_
    · have ea : (arr m0 a 0 n).drop i = (m0 (limb a i)).toNat :: (arr m0 a 0 n).drop (i + 1) := by
        rw [List.drop_eq_getElem_cons (by rw [arr_length]; omega), arr_getElem, Nat.zero_add]
      have eb : arr m b 0 n = arr m0 b 0 n := arr_congr fun j _ => by rw [fb]
      have et : arr m r (i + 1) n = (mulRows L (arr m0 b 0 n) ((arr m0 a 0 n).drop (i + 1))).take n := by
        rw [← h1, arr_take _ _ _ (by omega)]
      have ed : (mulRows L (arr m0 b 0 n) ((arr m0 a 0 n).drop (i + 1))).drop n = arr m r (i + 1 + n) (2 * n - (i + 1) - n) := by
        rw [← h1]
        apply List.ext_getElem
        · simp [arr_length]
        · intro j g1 g2; rw [List.getElem_drop, arr_getElem, arr_getElem]; congr 3; omega
      rw [ea, eb, et, fa]
      simp only [mulRows, arr_length]
      rw [ed, ← rowC_zero]
      have hl : (rowC L (m0 (limb a i)).toNat 0 ((mulRows L (arr m0 b 0 n) ((arr m0 a 0 n).drop (i + 1))).take n) (arr m0 b 0 n)).1.length = n := by
        rw [rowC_len _ _ _ _ _ (by rw [← et, arr_length, arr_length]), ← et, arr_length]
      generalize rowC L (m0 (limb a i)).toNat 0 ((mulRows L (arr m0 b 0 n) ((arr m0 a 0 n).drop (i + 1))).take n) (arr m0 b 0 n) = s at *
      apply List.ext_getElem
      · simp [arr_length, hl]; omega
      · intro j g1 g2
        rw [arr_length] at g1
        rw [arr_getElem]
        rcases j with _ | j
        · simp only [Mem.set, Nat.add_zero, if_true, Int.toNat_natCast, List.getElem_cons_zero]
        · have z1 : ¬ (i + (j + 1) = i) := by omega
          simp only [List.getElem_cons_succ, List.getElem_append, hl, Mem.set, Loc.limb.injEq, true_and, z1, if_false, setR]
          by_cases hj : j < n
          · rw [if_pos (by omega), dif_pos hj, show i + (j + 1) - (i + 1) = j by omega, Int.toNat_natCast, List.getD_eq_getElem?_getD, List.getElem?_eq_getElem (by omega), Option.getD_some]
          · rw [if_neg (by omega), dif_neg hj, arr_getElem]; congr 3; omega
    · intro l hl
      rw [← h2 l hl]
      cases l with
      | limb x j =>
        have : ¬ (x = r ∧ j < 2 * n) := by simpa [bufL] using hl
        simp only [Mem.set, setR, Loc.limb.injEq]
        rw [if_neg (by omega), if_neg (by omega)]
      | _ => simp [Mem.set, setR]

theorem Wp.colP {L : Limb} {a b n : Nat} {m : Mem} {q : Nat → Prog → Prog} (ra : ∀ j, j < n → R0 (limb a j) = true) (rb : ∀ j, j < n → R0 (limb b j) = true) :
    ∀ (ps : List (Nat × Nat)) (s : Nat), (∀ x ∈ ps, x.1 < n ∧ x.2 < n) → Wp R0 W0 (q (colSum L (arr m a 0 n) (arr m b 0 n) ps s)) m P →
      Wp R0 W0 (fun k => colP L a b ps s fun s => q s k) m P
  | [], s, _, h => h
  | (i, j) :: ps, s, hp, h => by
    have h0 := hp (i, j) (by simp)
    refine Wp.load (b := fun x k => Prog.load (limb b j) fun y => Thr.colP L a b ps ((s + (x.toNat * y.toNat) % L.D) % L.D) fun s => q s k) (ra i h0.1) ?_
    refine Wp.load (b := fun y k => Thr.colP L a b ps ((s + ((m (limb a i)).toNat * y.toNat) % L.D) % L.D) fun s => q s k) (rb j h0.2) ?_
    refine Wp.colP ra rb ps _ (fun x hx => hp x (by simp [hx])) ?_
    have g : ∀ (o i : Nat), i < n → (arr m o 0 n).getD i 0 = (m (limb o i)).toNat := fun o i hi => by
      rw [List.getD_eq_getElem?_getD, List.getElem?_eq_getElem (by rw [arr_length]; exact hi), Option.getD_some, arr_getElem, Nat.zero_add]
    simp only [colSum, g a i h0.1, g b j h0.2] at h
    exact h

theorem Wp.colsP {L : Limb} {r a b n : Nat} {m0 : Mem} {q : Prog → Prog} (hra : a ≠ r) (hrb : b ≠ r) (ra : ∀ j, j < n → R0 (limb a j) = true) (rb : ∀ j, j < n → R0 (limb b j) = true)
    (wr : ∀ j, j < 2 * n → W0 (limb r j) = true)  :
    ∀ (cs : List (List (Nat × Nat))) (carry pos : Nat) (acc : List Nat) (m : Mem), (∀ cl ∈ cs, ∀ x ∈ cl, x.1 < n ∧ x.2 < n) → pos = cs.length + 1 → pos ≤ 2 * n →
      arr m r pos (2 * n - pos) = acc → (∀ l, bufL (2 * n) r l = false → m l = m0 l) →
      (∀ m', arr m' r 0 (2 * n) = colLoop L (arr m0 a 0 n) (arr m0 b 0 n) cs carry acc → (∀ l, bufL (2 * n) r l = false → m' l = m0 l) → Wp R0 W0 q m' P) →
      Wp R0 W0 (fun k => colsP L r a b cs carry pos (q k)) m P
  | [], carry, pos, acc, m, _, hp, hp2, h1, h2, h => by
    refine Wp.stor (wr _ (by omega)) (h _ ?_ ?_)
    · simp only [List.length_nil] at hp
      simp only [hp, colLoop] at *
      rw [← h1]
      obtain ⟨w, hw⟩ : ∃ w, 2 * n = w + 1 := ⟨2 * n - 1, by omega⟩
      rw [hw]
      simp only [arr, Nat.zero_add, Nat.sub_self, Nat.add_sub_cancel]
      congr 1
      · simp only [Mem.set, if_true, Int.toNat_natCast]
      · exact arr_congr fun j _ => by
          have : ¬ (1 + j = 0) := by omega
          simp [Mem.set, this]
    · intro l hl
      rw [← h2 l hl]
      have : ¬ (l = limb r (pos - 1)) := by intro e; subst e; simp [bufL] at hl; omega
      simp [Mem.set, this]
  | cl :: cs, carry, pos, acc, m, hc, hp, hp2, h1, h2, h => by
    rw [List.length_cons] at hp
    refine Wp.colP ra rb cl carry (hc cl (by simp)) ?_
    have ea : arr m a 0 n = arr m0 a 0 n := arr_congr fun j _ => h2 _ (by simp [bufL, hra])
    have eb : arr m b 0 n = arr m0 b 0 n := arr_congr fun j _ => h2 _ (by simp [bufL, hrb])
    rw [ea, eb]
    refine Wp.stor (wr _ (by omega)) ?_
    refine Wp.colsP hra hrb ra rb wr cs _ (pos - 1) ((colSum L (arr m0 a 0 n) (arr m0 b 0 n) cl carry % L.mask) % L.W :: acc) _ (fun x hx => hc x (by simp [hx])) (by omega) (by omega) ?_ ?_ h
    · obtain ⟨w, hw⟩ : ∃ w, 2 * n - (pos - 1) = w + 1 := ⟨2 * n - pos, by omega⟩
      have hw2 : 2 * n - pos = w := by omega
      rw [hw, ← h1, hw2]
      simp only [arr]
      congr 1
      · simp only [Mem.set, if_true, Int.toNat_natCast]
      · rw [show pos - 1 + 1 = pos by omega]
        exact arr_congr fun j _ => by
          have : ¬ (pos + j = pos - 1) := by omega
          simp [Mem.set, this]
    · intro l hl
      rw [← h2 l hl]
      have : ¬ (l = limb r (pos - 1)) := by intro e; subst e; simp [bufL] at hl; omega
      simp [Mem.set, this]

theorem columns_bounds (n : Nat) : ∀ cl ∈ columns n, ∀ x ∈ cl, x.1 < n ∧ x.2 < n := by
  intro cl hcl x hx
  simp only [columns, List.mem_append, List.mem_map, List.mem_range] at hcl
  rcases hcl with ⟨k, hk, rfl⟩ | ⟨k, hk, rfl⟩
  · simp only [lowPairs, List.mem_map, List.mem_range] at hx
    obtain ⟨j, hj, rfl⟩ := hx
    simp only; omega
  · simp only [highPairs, List.mem_map, List.mem_range] at hx
    obtain ⟨j, hj, rfl⟩ := hx
    simp only; omega

theorem columns_len {n : Nat} (h : 1 ≤ n) : (columns n).length + 1 = 2 * n := by
  simp [columns]; omega

theorem Wp.school {L : Limb} {r a b n : Nat} {m : Mem} {q : Prog → Prog} (hn : 1 ≤ n) (hra : a ≠ r) (hrb : b ≠ r) (ra : ∀ j, j < n → R0 (limb a j) = true) (rb : ∀ j, j < n → R0 (limb b j) = true)
    (rr : ∀ j, j < 2 * n → R0 (limb r j) = true) (wr : ∀ j, j < 2 * n → W0 (limb r j) = true)
    (h : ∀ m', arr m' r 0 (2 * n) = schoolMul L (arr m a 0 n) (arr m b 0 n) → (∀ l, bufL (2 * n) r l = false → m' l = m l) → Wp R0 W0 q m' P) :
    Wp R0 W0 (fun k => schoolP L r a b n (q k)) m P := by
  have cols : ∀ L', (∀ m', arr m' r 0 (2 * n) = colLoop L' (arr m a 0 n) (arr m b 0 n) (columns n) 0 [] → (∀ l, bufL (2 * n) r l = false → m' l = m l) → Wp R0 W0 q m' P) →
      Wp R0 W0 (fun k => Thr.colsP L' r a b (columns n) 0 (2 * n) (q k)) m P := by
    intro L' h
    exact Wp.colsP hra hrb ra rb wr (columns n) 0 (2 * n) [] m (columns_bounds n) (columns_len hn).symm (Nat.le_refl _) (by rw [Nat.sub_self]; rfl) (fun _ _ => rfl) h
  cases L with
  | u8 =>
    simp only [schoolP, schoolMul] at h ⊢
    refine Wp.fillZ (2 * n) 0 m (fun i hi => by rw [Nat.zero_add]; exact wr i hi) ?_
    refine Wp.rowsP (m0 := m) hra hrb ra rb rr wr h n _ (Nat.le_refl _) ?_ ?_
    · rw [List.drop_eq_nil_of_le (by rw [arr_length])]
      simp only [mulRows, arr_length]
      apply List.ext_getElem
      · simp [arr_length]; omega
      · intro j g1 g2
        rw [arr_length] at g1
        rw [arr_getElem, List.getElem_replicate]
        simp only [setR, true_and]
        rw [if_pos (by omega)]; rfl
    · intro l hl
      cases l with
      | limb x j =>
        have : ¬ (x = r ∧ j < 2 * n) := by simpa [bufL] using hl
        simp only [setR]
        rw [if_neg (by omega)]
      | _ => rfl
  | u16 => simp only [schoolP, schoolMul, arr_length] at h ⊢; exact cols _ h
  | u32 => simp only [schoolP, schoolMul, arr_length] at h ⊢; exact cols _ h

end Thr
end WD
