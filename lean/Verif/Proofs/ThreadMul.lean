import Verif.Proofs.ThreadKara
/-
  `operator*=` (schoolbook and Karatsuba sizes) as a sequence of memory accesses.
-/
namespace WD
namespace Thr
open Prog Loc

variable (c : Cfg)
variable {R0 W0 : Loc → Bool} {P : Mem → Prop}

/-- The locations `*=` reads and writes: the objects and the limbs of the product buffer r. -/
def mrdL (r u v : Nat) (l : Loc) : Bool := objL c.N u l || objL c.N v l || bufL (scr c) r l
def mwrL (r u : Nat) (l : Loc) : Bool := objL c.N u l || bufL (scr c) r l

theorem karaLen_mono {p n : Nat} (h : p ≤ n) (hn : n ≤ 2097152) : karaLen p ≤ karaLen n := by
  obtain ⟨a1, a2, -⟩ := karaLen_least n hn
  obtain ⟨-, -, b3, -⟩ := karaLen_least p (by omega)
  exact b3 _ a2 (by omega)

theorem pool_mono {p n : Nat} (h : p ≤ n) (hn : n < 1793) : pool p ≤ pool n := by
  unfold pool
  split <;> split
  · omega
  · have := (karaLen_least n (by omega)).1; omega
  · omega
  · have := karaLen_mono h (by omega); omega

theorem bufL_mono {a b r : Nat} (h : a ≤ b) {l : Loc} (hl : bufL a r l = true) : bufL b r l = true := by
  cases l <;> simp [bufL] at hl ⊢
  omega

theorem wp_isOne {m : Mem} {x : Nat} {q : Bool → Prog → Prog} (rx : ∀ l, objL c.N x l = true → R0 l = true) (h : Wp R0 W0 (q (DW.isOneSN c (obj c m x))) m P) :
    Wp R0 W0 (fun k => isOneP c x fun b => q b k) m P := by
  have hN := N_pos c
  unfold isOneP
  refine Wp.load (rx _ (by simp [objL, hN])) (Wp.load (rx _ (by simp [objL])) ?_)
  unfold DW.isOneSN at h
  rw [d0_obj] at h
  have he : (obj c m x).exp = m (exp x) := by rw [obj_eq]
  have ht : (obj c m x).data.tail = arr m x 1 (c.N - 1) := by
    rw [obj_eq]
    obtain ⟨n, hn⟩ : ∃ n, c.N = n + 1 := ⟨c.N - 1, by omega⟩
    rw [hn]; simp [arr]
  rw [he, ht] at h
  refine Wp.ite (fun e => ?_) (fun e => Wp.ite (fun e2 => ?_) (fun e2 => ?_))
  · rw [if_pos (by simpa using e)] at h
    exact Wp.allP _ 1 (fun j hj => rx _ (by simp [objL]; omega)) h
  · rw [if_neg (by simpa using e), if_pos (by simpa using e2)] at h
    exact Wp.allP _ 1 (fun j hj => rx _ (by simp [objL]; omega)) h
  · rw [if_neg (by simpa using e), if_neg (by simpa using e2)] at h
    exact h

theorem mulDisp_small {p : Nat} {u v : DW} (hp : p < 113) : DW.mulDispatch c p u v =
    (if (schoolMul c.L (u.data.take p) (v.data.take p)).headD 0 ≠ 0 then { u with data := (schoolMul c.L (u.data.take p) (v.data.take p)).take p ++ u.data.drop p, exp := u.exp + c.ed }
    else { u with data := ((schoolMul c.L (u.data.take p) (v.data.take p)).drop 1).take p ++ u.data.drop p }) := by
  unfold DW.mulDispatch
  simp only [DW.elemsForFft, DW.elemsForKara]
  simp only [show p < 1793 by omega, hp, if_true]

theorem mulDisp_kara {p : Nat} {u v : DW} (hp : ¬ p < 113) (hp2 : p < 1793) : DW.mulDispatch c p u v =
    (if (DW.karaProduct c p (u.data.take p) (v.data.take p)).headD 0 ≠ 0 then { u with data := (DW.karaProduct c p (u.data.take p) (v.data.take p)).take p ++ u.data.drop p, exp := u.exp + c.ed }
    else { u with data := ((DW.karaProduct c p (u.data.take p) (v.data.take p)).drop 1).take p ++ u.data.drop p }) := by
  unfold DW.mulDispatch
  simp only [DW.elemsForFft, DW.elemsForKara]
  simp only [hp2, hp, if_true, if_false]

/-- The end of the multiplication: the first p limbs of the product, from the first non-zero limb on, go to u. -/
theorem wp_disp_tail {m1 : Mem} {r u p s len lim : Nat} {L : List Nat} (hru : r ≠ u) (hp1 : 1 ≤ p) (hpN : p ≤ c.N) (hL : arr m1 r s len = L) (hlen : p + 1 ≤ len) (hlim : lim = p)
    (ru : ∀ l, objL c.N u l = true → R0 l = true) (rr : ∀ i, i < len → R0 (limb r (s + i)) = true) (wu : ∀ l, objL c.N u l = true → W0 l = true)
    (h : ∀ m', obj c m' u = (if L.headD 0 ≠ 0 then { obj c m1 u with data := L.take p ++ (obj c m1 u).data.drop p, exp := (obj c m1 u).exp + c.ed }
      else { obj c m1 u with data := (L.drop 1).take p ++ (obj c m1 u).data.drop p }) → P m') :
    Wp R0 W0 (fun k => load (limb r s) fun r0 =>
      if r0.toNat ≠ 0 then load (exp u) fun e => stor (exp u) (e + c.ed) (copyF r s u 0 p k)
      else copyF r (s + 1) u 0 lim k) m1 P := by
  subst hL
  subst hlim
  refine Wp.load (by have := rr 0 (by omega); exact this) ?_
  have hd : (arr m1 r s len).headD 0 = (m1 (limb r s)).toNat := by
    obtain ⟨w, hw⟩ : ∃ w, len = w + 1 := ⟨len - 1, by omega⟩
    rw [hw]; rfl
  rw [hd] at h
  have rng : ∀ (s' : Nat), arr m1 r s' lim = (List.range lim).map fun i => (m1 (limb r (s' + i))).toNat := by
    intro s'
    apply List.ext_getElem
    · simp [arr_length]
    · intro i h1 h2; rw [arr_getElem]; simp
  refine Wp.ite (fun e => ?_) (fun e => ?_)
  · rw [if_pos e] at h
    refine Wp.load (ru _ (by simp [objL])) (Wp.stor (wu _ (by simp [objL])) ?_)
    refine Wp.copyF (q := fun k => k) lim s 0 _ (fun e => absurd e hru) (fun i hi => rr i (by omega)) (fun i hi => wu _ (by simp [objL]; omega)) (Wp.fin (h _ ?_))
    have ea : arr (setR (m1.set (exp u) (m1 (exp u) + c.ed)) u 0 lim fun i => (m1.set (exp u) (m1 (exp u) + c.ed)) (limb r (s + i))) u 0 c.N =
        (arr m1 r s len).take lim ++ (obj c m1 u).data.drop lim := by
      rw [arr_setR (by omega), arr_take m1 r s (by omega), rng, obj_eq, arr_set_exp]
      simp [Mem.set]
    rw [obj_eq, ea]
    conv => rhs; rw [obj_eq]
    simp [setR, Mem.set, obj_eq]
  · rw [if_neg e] at h
    refine Wp.copyF (q := fun k => k) lim (s + 1) 0 _ (fun e => absurd e hru) (fun i hi => by rw [show s + 1 + i = s + (1 + i) by omega]; exact rr _ (by omega)) (fun i hi => wu _ (by simp [objL]; omega)) (Wp.fin (h _ ?_))
    have ea : arr (setR m1 u 0 lim fun i => m1 (limb r (s + 1 + i))) u 0 c.N = ((arr m1 r s len).drop 1).take lim ++ (obj c m1 u).data.drop lim := by
      have et : ((arr m1 r s len).drop 1).take lim = (List.range lim).map fun i => (m1 (limb r (s + 1 + i))).toNat := by
        obtain ⟨w, hw⟩ : ∃ w, len = w + 1 := ⟨len - 1, by omega⟩
        rw [hw]
        simp only [arr, List.drop_succ_cons, List.drop_zero]
        rw [arr_take m1 r (s + 1) (by omega), rng]
      rw [arr_setR (by omega), et, obj_eq]
      simp
    rw [obj_eq, ea]
    conv => rhs; rw [obj_eq]
    simp [setR, obj_eq]

theorem rd_pv (m : Mem) (r : Nat) : ∀ n s, rd (pv m r) s n = arr m r s n
  | 0, _ => rfl
  | n + 1, s => by simp only [rd, arr, rd_pv m r n]; rfl

theorem wp_disp {m : Mem} {r u v p : Nat} (hru : r ≠ u) (hrv : r ≠ v) (hp1 : 1 ≤ p) (hpN : p ≤ c.N) (hN : c.N < 1793)
    (ru : ∀ l, objL c.N u l = true → R0 l = true) (rv : ∀ l, objL c.N v l = true → R0 l = true) (rr : ∀ l, bufL (pool p) r l = true → R0 l = true)
    (wu : ∀ l, objL c.N u l = true → W0 l = true) (wr : ∀ l, bufL (pool p) r l = true → W0 l = true)
    (h : ∀ m', obj c m' u = DW.mulDispatch c p (obj c m u) (obj c m v) → P m') : Wp R0 W0 (mulDispP c r u v p) m P := by
  have tk : ∀ (m : Mem) o, (obj c m o).data.take p = arr m o 0 p := by intro m o; rw [obj_eq]; exact arr_take _ _ _ hpN
  unfold mulDispP
  refine Wp.ite (fun hs => ?_) (fun hs => ?_)
  · have hsz : pool p = 2 * p := if_pos hs
    rw [mulDisp_small c hs, tk, tk] at h
    refine Wp.school hp1 hru.symm hrv.symm (fun j hj => ru _ (by simp [objL]; omega)) (fun j hj => rv _ (by simp [objL]; omega)) (fun j hj => rr _ (by simp [bufL]; omega))
      (fun j hj => wr _ (by simp [bufL]; omega)) fun m1 a1 b1 => ?_
    rw [← a1] at h
    have ou : obj c m1 u = obj c m u := obj_congr c fun l hl => b1 l (objL_buf hru.symm hl)
    rw [← ou] at h
    exact wp_disp_tail c (s := 0) (len := 2 * p) hru hp1 hpN rfl (by omega) (by omega) ru (fun i hi => rr _ (by simp [bufL]; omega)) wu h
  · have hp2 : p < 1793 := by omega
    rw [mulDisp_kara c hs hp2, tk, tk] at h
    obtain ⟨k1, -, -, k4, k5⟩ := karaLen_least p (by omega)
    have hsz : pool p = 8 * karaLen p := if_neg hs
    unfold DW.karaProduct at h
    dsimp only at h ⊢
    generalize karaLen p = n at *
    have hR : ∀ i, i < 8 * n → R0 (limb r i) = true := fun i hi => rr _ (by simp [bufL]; omega)
    have hW : ∀ i, i < 8 * n → W0 (limb r i) = true := fun i hi => wr _ (by simp [bufL]; omega)
    refine Wp.copyI (S := 8 * n) hru.symm hW p 0 0 m (fun i hi => ru _ (by simp [objL]; omega)) (by omega) fun m1 a1 f1 => ?_
    refine Wp.copyI (S := 8 * n) hrv.symm hW p 0 n m1 (fun i hi => rv _ (by simp [objL]; omega)) (by omega) fun m2 a2 f2 => ?_
    refine Wp.fillI (S := 8 * n) hW (n - p) p m2 (by omega) fun m3 a3 f3 => ?_
    refine Wp.fillI (S := 8 * n) hW (n - p) (n + p) m3 (by omega) fun m4 a4 f4 => ?_
    have ev : arr m1 v 0 p = arr m v 0 p := arr_congr fun j _ => f1 _ (by simp [bufL, hrv.symm])
    rw [ev] at a2
    rw [a3, a2, a1] at a4
    have f14 : ∀ l, bufL (8 * n) r l = false → m4 l = m l := fun l hl => by rw [f4 l hl, f3 l hl, f2 l hl, f1 l hl]
    -- the Karatsuba routine, all accesses inside the buffer
    have hk : Wp (bufL (8 * n) r) (bufL (8 * n) r) (karaP c.L r (2 * n) 0 n n (4 * n)) m4 fun m5 => pv m5 r = kara c.L (pv m4 r) (2 * n) 0 n n (4 * n) :=
      Wp.karaP (S := 8 * n) (fun i hi => by simp [bufL, hi]) (fun i hi => by simp [bufL, hi]) k4 k5 _ (fun k => k) (2 * n) 0 n (4 * n) m4 (by omega) (by omega) (by omega) (by omega)
        (by unfold Disjoint2; omega) (by unfold Disjoint2; omega) (by unfold Disjoint2; omega) fun m' e => Wp.fin e
    refine Wp.seq (q1 := karaP c.L r (2 * n) 0 n n (4 * n)) (Wp.tight hk (fun l hl => rr l (by cases l <;> simp [bufL] at hl ⊢; omega)) (fun l hl => wr l (by cases l <;> simp [bufL] at hl ⊢; omega)) fun m5 a5 f5 => ?_)
    have ou : obj c m5 u = obj c m u := obj_congr c fun l hl => by rw [f5 l (objL_buf hru.symm hl), f14 l (objL_buf hru.symm hl)]
    -- what was in the buffer before does not matter
    have agr : Agr (fun x => x < 2 * n) (pv m4 r) (WD.Mem.store (WD.Mem.store (fun _ => 0) 0 (arr m u 0 p)) n (arr m v 0 p)) := by
      intro x hx
      rw [a4]
      have la : (arr m u 0 p).length = p := arr_length _ _ _ _
      have lb : (arr m v 0 p).length = p := arr_length _ _ _ _
      generalize arr m u 0 p = U at *
      generalize arr m v 0 p = V at *
      by_cases x1 : x < p
      · rw [store_frame _ (n + p) _ x (by simp; omega), store_frame _ p _ x (by simp; omega), store_frame _ n _ x (by omega), store_frame _ n _ x (by omega)]
        have := store_at (pv m r) U 0 x (by omega)
        have h2 := store_at (fun _ => 0) U 0 x (by omega)
        rw [Nat.zero_add] at this h2
        rw [this, h2]
      · by_cases x2 : x < n
        · rw [store_frame _ (n + p) _ x (by simp; omega), store_frame _ n _ x (by omega), store_frame _ 0 _ x (by omega)]
          obtain ⟨j, rfl⟩ : ∃ j, x = p + j := ⟨x - p, by omega⟩
          rw [store_at _ _ _ _ (by simp; omega)]
          rw [List.getD_eq_getElem?_getD, List.getElem?_replicate]; split <;> rfl
        · obtain ⟨j, rfl⟩ : ∃ j, x = n + j := ⟨x - n, by omega⟩
          by_cases x3 : j < p
          · rw [store_frame _ (n + p) _ _ (by simp; omega), store_frame _ p _ _ (by simp; omega), store_at _ _ _ _ (by omega), store_at _ _ _ _ (by omega)]
          · rw [store_frame _ n _ _ (by omega), store_frame _ 0 _ _ (by omega)]
            obtain ⟨i, rfl⟩ : ∃ i, j = p + i := ⟨j - p, by omega⟩
            rw [← Nat.add_assoc, store_at _ _ _ _ (by simp; omega)]
            rw [List.getD_eq_getElem?_getD, List.getElem?_replicate]; split <;> rfl
    have ka := kara_agr c.L (schoolLen c.L) k4 k5 _ _ _ (2 * n) 0 n (4 * n) agr (fun x h1 h2 => by omega) (fun x h1 h2 => by omega)
    have er := ka.rd (p := 2 * n) (n := 2 * n) (fun x h1 h2 => Or.inr ⟨h1, h2⟩)
    rw [← er, ← a5, rd_pv, ← ou] at h
    exact wp_disp_tail c (s := 2 * n) (len := 2 * n) hru hp1 hpN rfl (by omega) (by omega) ru (fun i hi => rr _ (by simp [bufL]; omega)) wu h

theorem wp_mul_t {m : Mem} {r u v : Nat} (hru : r ≠ u) (hrv : r ≠ v) (hN : c.N < 1793) (pu : 1 ≤ (obj c m u).prec ∧ (obj c m u).prec ≤ c.N) (pv : 1 ≤ (obj c m v).prec) :
    Wp (mrdL c r u v) (mwrL c r u) (mulProg c r u v) m fun m' => obj c m' u = DW.mulAt c (obj c m) u v u := by
  have hNp := N_pos c
  have ru : ∀ l, objL c.N u l = true → mrdL c r u v l = true := fun l h => by simp [mrdL, h]
  have rv : ∀ l, objL c.N v l = true → mrdL c r u v l = true := fun l h => by simp [mrdL, h]
  have rr : ∀ l, bufL (scr c) r l = true → mrdL c r u v l = true := fun l h => by simp [mrdL, h]
  have wu : ∀ l, objL c.N u l = true → mwrL c r u l = true := fun l h => by simp [mwrL, h]
  have wr : ∀ l, bufL (scr c) r l = true → mwrL c r u l = true := fun l h => by simp [mwrL, h]
  have main : ∀ m1 : Mem, (1 ≤ (obj c m1 u).prec ∧ (obj c m1 u).prec ≤ c.N) → 1 ≤ (obj c m1 v).prec → ∀ s1 : DW.Store, s1 u = obj c m1 u → s1 v = obj c m1 v →
      (DW.mulAt c (obj c m) u v u = (let rneg := (s1 u).neg != (s1 v).neg
        let s2 := DW.upd s1 u { s1 u with neg := false }
        let s3 :=
          if DW.isOneSN c (s2 u) then DW.assignAt s2 u v
          else if DW.isOneSN c (s2 v) then s2
          else
            let e := (s2 u).exp + (s2 v).exp
            if 0 ≤ e ∧ e ≥ c.maxExp then DW.upd s2 u (DW.maxVal c)
            else if e < 0 ∧ -e ≥ c.maxExp then DW.upd s2 u (DW.minVal c)
            else
              let s := DW.upd s2 u { s2 u with exp := e }
              DW.upd s u (DW.mulDispatch c (min (s u).prec (s v).prec) (s u) (s v))
        DW.upd s3 u { s3 u with neg := rneg }) u) →
      Wp (mrdL c r u v) (mwrL c r u) (fun k => load (neg u) fun nu => load (neg v) fun nv =>
        let rneg := (nu != 0) != (nv != 0)
        let fin := stor (neg u) (ofB rneg) k
        stor (neg u) 0 (isOneP c u fun o1 =>
          if o1 then assignP c u v fin
          else isOneP c v fun o2 =>
            if o2 then fin
            else load (exp u) fun eu => load (exp v) fun ev =>
              let e := eu + ev
              if 0 ≤ e ∧ e ≥ c.maxExp then constP u (DW.maxVal c) fin
              else if e < 0 ∧ -e ≥ c.maxExp then constP u (DW.minVal c) fin
              else stor (exp u) e (load (prec u) fun pu => load (prec v) fun pv => mulDispP c r u v (min pu.toNat pv.toNat) fin)))
        m1 fun m' => obj c m' u = DW.mulAt c (obj c m) u v u := by
    intro m1 pu pv s1 hu hv hgoal
    rw [hgoal]
    clear hgoal
    dsimp only
    generalize hx : ({ s1 u with neg := false } : DW) = x
    simp only [dupd_same]
    have nn : ∀ o, (obj c m1 o).neg = (m1 (neg o) != 0) := fun o => by rw [obj_eq]
    refine Wp.load (ru _ (by simp [objL])) (Wp.load (rv _ (by simp [objL])) ?_)
    rw [← nn, ← nn, ← hu, ← hv]
    generalize ((s1 u).neg != (s1 v).neg) = rneg
    refine Wp.stor (wu _ (by simp [objL])) ?_
    have hs : ∀ o, o = u ∨ o = v → obj c (m1.set (neg u) 0) o = DW.upd s1 u x o := by
      intro o ho
      unfold DW.upd
      by_cases h : o = u
      · rw [if_pos h, ← hx, hu, h, obj_eq, obj_eq, arr_set_neg]; simp [Mem.set]
      · rw [if_neg h]
        rcases ho with ho | ho
        · exact absurd ho h
        · subst ho
          rw [hv]
          refine obj_congr c fun l hl => ?_
          have : l ≠ neg u := by intro e; subst e; simp [objL] at hl; exact h hl.symm
          simp [Mem.set, this]
    have pu2 : 1 ≤ (obj c (m1.set (neg u) 0) u).prec ∧ (obj c (m1.set (neg u) 0) u).prec ≤ c.N := by
      have : (obj c (m1.set (neg u) 0) u).prec = (obj c m1 u).prec := by rw [obj_eq, obj_eq]; simp [Mem.set]
      rw [this]; exact pu
    have pv2 : 1 ≤ (obj c (m1.set (neg u) 0) v).prec := by
      have : (obj c (m1.set (neg u) 0) v).prec = (obj c m1 v).prec := by rw [obj_eq, obj_eq]; simp [Mem.set]
      rw [this]; exact pv
    have hsu := hs u (Or.inl rfl)
    have hsv := hs v (Or.inr rfl)
    clear hs
    rw [dupd_same] at hsu
    clear hx
    subst hsu
    have hsu : obj c (m1.set (neg u) 0) u = DW.upd s1 u (obj c (m1.set (neg u) 0) u) u := (dupd_same _ _ _).symm
    generalize DW.upd s1 u (obj c (m1.set (neg u) 0) u) = s2 at *
    generalize m1.set (neg u) 0 = m2 at *
    -- the last statement
    have fin : ∀ m3 : Mem, ∀ x, obj c m3 u = x → Wp (mrdL c r u v) (mwrL c r u) (fun k => stor (neg u) (ofB rneg) k) m3 fun m' => obj c m' u = { x with neg := rneg } := by
      intro m3 x hx
      refine Wp.stor (wu _ (by simp [objL])) (Wp.fin ?_)
      rw [← hx, obj_eq, obj_eq, arr_set_neg]
      cases rneg <;> simp [Mem.set, ofB]
    refine wp_isOne c ru (Wp.ite (fun e1 => ?_) (fun e1 => wp_isOne c rv (Wp.ite (fun e2 => ?_) (fun e2 => ?_))))
    · rw [if_pos e1]
      refine Wp.seq (q1 := assignP c u v) (wp_assign c rv wu fun m3 a3 => fin m3 _ ?_)
      unfold DW.assignAt
      rw [a3, dupd_same, hsv]
    · rw [if_neg e1]
      rw [hsv] at e2
      rw [if_pos e2]
      exact fin m2 _ hsu
    · rw [if_neg e1]
      rw [hsv] at e2
      rw [if_neg e2]
      refine Wp.load (ru _ (by simp [objL])) (Wp.load (rv _ (by simp [objL])) ?_)
      have he : ∀ o, m2 (exp o) = (obj c m2 o).exp := fun o => by rw [obj_eq]
      rw [he u, he v]
      rw [← hsv]
      generalize hE : (obj c m2 u).exp + (obj c m2 v).exp = e
      refine Wp.ite (fun e3 => ?_) (fun e3 => Wp.ite (fun e4 => ?_) (fun e4 => ?_))
      · rw [if_pos e3, dupd_same]
        exact Wp.seq (q1 := constP u (DW.maxVal c)) (wp_const c (by simp [DW.maxVal, DW.fromLst]; omega) wu fun m3 a3 => fin m3 _ a3)
      · rw [if_neg e3, if_pos e4, dupd_same]
        exact Wp.seq (q1 := constP u (DW.minVal c)) (wp_const c (by simp [DW.minVal, DW.fromLst]; omega) wu fun m3 a3 => fin m3 _ a3)
      · rw [if_neg e3, if_neg e4, dupd_same]
        refine Wp.stor (wu _ (by simp [objL])) (Wp.load (ru _ (by simp [objL])) (Wp.load (rv _ (by simp [objL])) ?_))
        have o1 : obj c (m2.set (exp u) e) u = { obj c m2 u with exp := e } := by
          rw [obj_eq, obj_eq, arr_set_exp]; simp [Mem.set]
        have o2 : obj c (m2.set (exp u) e) v = DW.upd s2 u { obj c m2 u with exp := e } v := by
          unfold DW.upd
          by_cases h : v = u
          · rw [if_pos h, h, o1]
          · rw [if_neg h, ← hsv]
            refine obj_congr c fun l hl => ?_
            have : l ≠ exp u := by intro e; subst e; simp [objL] at hl; exact h hl.symm
            simp [Mem.set, this]
        have o3 : ∀ o, ((m2.set (exp u) e) (prec o)).toNat = (obj c (m2.set (exp u) e) o).prec := fun o => by rw [obj_eq]
        have o4 : ∀ o, (obj c (m2.set (exp u) e) o).prec = (obj c m2 o).prec := fun o => by rw [obj_eq, obj_eq]; simp [Mem.set]
        rw [o3, o3]
        refine Wp.seq (q1 := mulDispP c r u v _) (wp_disp c hru hrv ?_ ?_ hN ru rv (fun l hl => rr l (bufL_mono (pool_mono (by rw [o4, o4]; omega) hN) hl)) wu (fun l hl => wr l (bufL_mono (pool_mono (by rw [o4, o4]; omega) hN) hl)) fun m3 a3 => fin m3 _ ?_)
        · rw [o4, o4]; omega
        · rw [o4, o4]; omega
        · rw [a3, ← o2, ← o1, o4 u]
  have pz : (DW.zero c).prec = c.N := rfl
  have zl : (DW.zero c).data.length = c.N := by simp [DW.zero, DW.fromLst]; omega
  have zero : (obj c m u).isZero = true ∨ (obj c m v).isZero = true → Wp (mrdL c r u v) (mwrL c r u) (fun k => constP u (DW.zero c) (load (neg u) fun nu => load (neg v) fun nv =>
        let rneg := (nu != 0) != (nv != 0)
        let fin := stor (neg u) (ofB rneg) k
        stor (neg u) 0 (isOneP c u fun o1 =>
          if o1 then assignP c u v fin
          else isOneP c v fun o2 =>
            if o2 then fin
            else load (exp u) fun eu => load (exp v) fun ev =>
              let e := eu + ev
              if 0 ≤ e ∧ e ≥ c.maxExp then constP u (DW.maxVal c) fin
              else if e < 0 ∧ -e ≥ c.maxExp then constP u (DW.minVal c) fin
              else stor (exp u) e (load (prec u) fun pu => load (prec v) fun pv => mulDispP c r u v (min pu.toNat pv.toNat) fin)))) m
      fun m' => obj c m' u = DW.mulAt c (obj c m) u v u := by
    intro hz
    refine Wp.seq (q1 := constP u (DW.zero c)) (Wp.tight (R1 := objL c.N u) (W1 := objL c.N u) (Q := fun m' => obj c m' u = DW.zero c)
      (wp_const c zl (fun _ h => h) (fun _ h => h)) ru wu fun m1 a1 b1 => ?_)
    have ov : obj c m1 v = DW.upd (obj c m) u (DW.zero c) v := by
      unfold DW.upd
      by_cases h : v = u
      · rw [if_pos h, h, a1]
      · rw [if_neg h]; exact obj_congr c fun l hl => b1 l (objL_ne h hl)
    refine main m1 (by rw [a1, pz]; omega) ?_ (DW.upd (obj c m) u (DW.zero c)) (by rw [a1, dupd_same]) ov.symm ?_
    · rw [ov]; unfold DW.upd
      split
      · rw [pz]; omega
      · exact pv
    · conv => lhs; unfold DW.mulAt
      simp only [if_pos hz]
  unfold mulProg
  refine Wp.load (ru _ (by simp [objL, hNp])) (Wp.ite (fun e => zero (Or.inl ((isZero_obj c m u).mpr e))) (fun e => ?_))
  refine Wp.load (rv _ (by simp [objL, hNp])) (Wp.ite (fun e2 => zero (Or.inr ((isZero_obj c m v).mpr e2))) (fun e2 => ?_))
  refine main m pu pv (obj c m) rfl rfl ?_
  conv => lhs; unfold DW.mulAt
  have hz : ¬ ((obj c m u).isZero = true ∨ (obj c m v).isZero = true) := by rw [isZero_obj, isZero_obj]; exact fun h => h.elim e e2
  simp only [if_neg hz]

end Thr
end WD
