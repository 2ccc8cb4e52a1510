import Verif.Proofs.ThreadSchool
/-
  Multiplication and division by a small number as programs of single memory accesses.
-/
namespace WD
namespace Thr
open Prog Loc

variable {R0 W0 : Loc → Bool} {P : Mem → Prop}

/-- `mulLoop` with a carry coming in. -/
def mulLC (L : Limb) (n cin : Nat) : List Nat → List Nat × Nat
  | u :: us =>
    let o := mulLC L n cin us
    let t := (o.2 + (u * n) % L.D) % L.D
    ((t % L.mask) % L.W :: o.1, (t / L.mask) % L.W)
  | [] => ([], cin)

theorem mulLC_zero (L : Limb) (n : Nat) : ∀ u : List Nat, mulLC L n 0 u = mulLoop L n u
  | u :: us => by simp [mulLC, mulLoop, mulLC_zero L n us]
  | [] => rfl

theorem mulLC_len (L : Limb) (n cin : Nat) : ∀ u : List Nat, (mulLC L n cin u).1.length = u.length
  | u :: us => by simp [mulLC, mulLC_len L n cin us]
  | [] => rfl

theorem mulLC_snoc (L : Limb) (n : Nat) : ∀ (u : List Nat) (x cin : Nat), mulLC L n cin (u ++ [x]) =
    ((mulLC L n ((((cin + (x * n) % L.D) % L.D) / L.mask) % L.W) u).1 ++ [(((cin + (x * n) % L.D) % L.D) % L.mask) % L.W],
      (mulLC L n ((((cin + (x * n) % L.D) % L.D) / L.mask) % L.W) u).2)
  | [], x, cin => by simp [mulLC]
  | a :: as, x, cin => by
    have := mulLC_snoc L n as x cin
    simp [mulLC, this]

theorem Wp.mulLP {L : Limb} {u n : Nat} {q : Nat → Prog → Prog} : ∀ (j carry : Nat) (m : Mem), (∀ i, i < j → R0 (limb u i) = true) →
    (∀ i, i < j → W0 (limb u i) = true) → Wp R0 W0 (q (mulLC L n carry (arr m u 0 j)).2)
      (setR m u 0 j fun i => ((mulLC L n carry (arr m u 0 j)).1.getD i 0 : Nat)) P →
    Wp R0 W0 (fun k => mulLP L u n j carry fun cy => q cy k) m P
  | 0, carry, m, _, _, h => by rw [setR_zero] at h; exact h
  | j + 1, carry, m, hu, hw, h => by
    refine Wp.load (b := fun x k => Prog.stor (limb u j) ((((carry + (x.toNat * n) % L.D) % L.D) % L.mask) % L.W : Nat)
      (Thr.mulLP L u n j ((((carry + (x.toNat * n) % L.D) % L.D) / L.mask) % L.W) fun cy => q cy k)) (hu j (by omega)) ?_
    refine Wp.stor (hw j (by omega)) ?_
    refine Wp.mulLP j _ _ (fun i hi => hu i (by omega)) (fun i hi => hw i (by omega)) ?_
    rw [arr_set_ge]
    rw [arr_snoc, mulLC_snoc] at h
    simp only [Nat.zero_add] at h
    generalize (carry + ((m (limb u j)).toNat * n) % L.D) % L.D = t at h ⊢
    have hlen := mulLC_len L n ((t / L.mask) % L.W) (arr m u 0 j)
    rw [arr_length] at hlen
    rw [← setR_last, getD_snoc_last hlen, setR_congr (g := fun i => (((mulLC L n ((t / L.mask) % L.W) (arr m u 0 j)).1.getD i 0 : Nat) : Int))
      (fun i hi => by rw [getD_snoc_lt (by omega)])] at h
    simp only [Nat.zero_add] at h
    exact h

theorem divLoop_length (L : Limb) (n : Nat) : ∀ (l : List Nat) (prev : Nat), (divLoop L n prev l).1.length = l.length
  | [], _ => rfl
  | x :: xs, prev => by simp [divLoop, divLoop_length L n xs]

theorem Wp.divLP {L : Limb} {u n : Nat} {q : Nat → Prog → Prog} : ∀ (j i prev : Nat) (m : Mem), (∀ a, a < j → R0 (limb u (i + a)) = true) →
    (∀ a, a < j → W0 (limb u (i + a)) = true) → Wp R0 W0 (q (divLoop L n prev (arr m u i j)).2)
      (setR m u i j fun a => ((divLoop L n prev (arr m u i j)).1.getD a 0 : Nat)) P →
    Wp R0 W0 (fun k => divLP L u n i j prev fun cy => q cy k) m P
  | 0, i, prev, m, _, _, h => by rw [setR_zero] at h; exact h
  | j + 1, i, prev, m, hu, hw, h => by
    refine Wp.load (b := fun x k => Prog.stor (limb u i) ((((x.toNat + (prev * L.mask) % L.D) % L.D) / n) % L.W : Nat)
      (Thr.divLP L u n (i + 1) j ((((x.toNat + (prev * L.mask) % L.D) % L.D) % n) % L.W) fun cy => q cy k)) (hu 0 (by omega)) ?_
    refine Wp.stor (hw 0 (by omega)) ?_
    refine Wp.divLP j (i + 1) _ _ (fun a ha => ?_) (fun a ha => ?_) ?_
    · rw [show i + 1 + a = i + (a + 1) by omega]; exact hu _ (by omega)
    · rw [show i + 1 + a = i + (a + 1) by omega]; exact hw _ (by omega)
    · have e : ∀ v, arr (m.set (limb u i) v) u (i + 1) j = arr m u (i + 1) j := fun v => arr_congr fun a ha => by
        have : ¬ (i + 1 + a = i) := by omega
        simp [Mem.set, this]
      rw [e]
      simp only [arr, divLoop] at h
      rw [← setR_succ] at h
      simpa using h

variable (c : Cfg)

theorem wp_mulN {m : Mem} {u n : Nat} (hn : n < c.B) (ru : ∀ l, objL c.N u l = true → R0 l = true) (wu : ∀ l, objL c.N u l = true → W0 l = true)
    (pu : 1 ≤ (obj c m u).prec ∧ (obj c m u).prec ≤ c.N) (h : ∀ m', obj c m' u = DW.mulULL c (obj c m u) n → P m') : Wp R0 W0 (mulNProg c u n) m P := by
  have hN := N_pos c
  unfold mulNProg
  unfold DW.mulULL at h
  have hz : (({ obj c m u with neg := false } : DW).isZero = true ∨ n = 0) ↔ ((m (limb u 0)).toNat = 0 ∨ n = 0) := by
    rw [← isZero_obj c m u]; rfl
  refine Wp.load (ru _ (by simp [objL])) (Wp.stor (wu _ (by simp [objL])) (Wp.load (ru _ (by simp [objL, hN])) ?_))
  have l0 : (m.set (neg u) 0) (limb u 0) = m (limb u 0) := by simp [Mem.set]
  rw [l0]
  refine Wp.ite (fun e => ?_) (fun e => ?_)
  · dsimp only at h
    rw [if_pos (hz.mpr e)] at h
    exact wp_const c (by simp [DW.zero, DW.fromLst]; omega) wu h
  dsimp only at h
  rw [if_neg (fun hc => e (hz.mp hc))] at h
  refine Wp.load (ru _ (by simp [objL])) ?_
  have l1 : (m.set (neg u) 0) (exp u) = (obj c m u).exp := by simp [Mem.set, obj]
  rw [l1]
  refine Wp.ite (fun e => ?_) (fun e => ?_)
  · rw [if_pos e] at h
    refine wp_const c ?_ wu h
    split <;> simp [DW.maxVal, DW.fromLst, DW.negate, apply_ite] <;> omega
  rw [if_neg e, if_neg (Nat.not_le.mpr hn)] at h
  refine Wp.ite (fun e => ?_) (fun e => ?_)
  · rw [if_pos e] at h
    refine Wp.stor (wu _ (by simp [objL])) (Wp.fin (h _ ?_))
    rw [obj_eq, obj_eq]
    simp only [arr_set_neg]
    simp [Mem.set]
  rw [if_neg e] at h
  refine Wp.load (ru _ (by simp [objL])) ?_
  have l2 : ((m.set (neg u) 0) (prec u)).toNat = (obj c m u).prec := by simp [Mem.set, obj]
  rw [l2]
  have l3 : (m (prec u)).toNat = (obj c m u).prec := by simp [obj]
  generalize hp : (obj c m u).prec = p at *
  refine Wp.mulLP p 0 _ (fun i hi => ru _ (by simp [objL]; omega)) (fun i hi => wu _ (by simp [objL]; omega)) ?_
  rw [arr_set_neg, mulLC_zero]
  have e1 : (obj c m u).data.take p = arr m u 0 p := by rw [obj_eq]; exact arr_take m u 0 pu.2
  rw [e1] at h
  have e2 : (mulLoop c.L n (arr m u 0 p)).1.length = p := by
    have := mulLC_len c.L n 0 (arr m u 0 p)
    rw [mulLC_zero, arr_length] at this; exact this
  have e3 : (obj c m u).data = arr m u 0 c.N := by rw [obj_eq]
  rw [e3] at h
  generalize mulLoop c.L n (arr m u 0 p) = s at h e2 ⊢
  have e4 := arr_setL (m := m.set (neg u) 0) (a := u) e2 pu.2
  rw [arr_set_neg] at e4
  have e5 : ∀ l, (∀ a i, l ≠ limb a i) → (setR (m.set (neg u) 0) u 0 p fun i => (s.1.getD i 0 : Nat)) l = (m.set (neg u) 0) l := by
    intro l hl; cases l <;> simp [setR] at hl ⊢
  generalize (setR (m.set (neg u) 0) u 0 p fun i => (s.1.getD i 0 : Nat)) = m1 at *
  have f1 : m1 (exp u) = m (exp u) := by rw [e5 _ (by simp)]; simp [Mem.set]
  have f2 : m1 (prec u) = m (prec u) := by rw [e5 _ (by simp)]; simp [Mem.set]
  refine Wp.ite (fun e => ?_) (fun e => ?_)
  · rw [if_pos e] at h
    refine Wp.load (ru _ (by simp [objL])) (Wp.stor (wu _ (by simp [objL])) ?_)
    refine Wp.copyB _ _ (fun _ => by omega) (fun i hi => ru _ (by simp [objL]; omega)) (fun i hi => wu _ (by simp [objL]; omega)) ?_
    refine Wp.stor (wu _ (by simp [objL, hN])) (Wp.stor (wu _ (by simp [objL])) (Wp.fin (h _ ?_)))
    rw [obj_eq, obj_eq]
    simp only [arr_set_neg]
    have key : arr ((setR (m1.set (exp u) (m1 (exp u) + c.ed)) u 1 (p - 1) fun i => (m1.set (exp u) (m1 (exp u) + c.ed)) (limb u (0 + i))).set (limb u 0) (s.2 : Nat)) u 0 c.N =
        s.2 :: (s.1.take (p - 1) ++ (arr m u 0 c.N).drop p) := by
      apply List.ext_getElem
      · simp [arr_length, e2]; omega
      · intro i h1 h2
        rw [arr_length] at h1
        rw [arr_getElem]
        rcases i with _ | i
        · simp [Mem.set]
        · have k1 : ∀ j (hj : j < c.N), (m1 (limb u j)).toNat = (s.1 ++ (arr m u 0 c.N).drop p)[j]'(by simp [e2, arr_length]; omega) := by
            intro j hj
            have := arr_getElem m1 u c.N 0 j (by rw [arr_length]; exact hj)
            rw [Nat.zero_add] at this
            rw [← this]; simp only [e4]
          simp only [List.getElem_cons_succ, Mem.set, setR, Loc.limb.injEq, true_and, Nat.zero_add, Nat.succ_ne_zero, if_false, reduceCtorEq]
          by_cases hi : i < p - 1
          · rw [if_pos (by omega), show i + 1 - 1 = i by omega, k1 i (by omega), List.getElem_append_left (by simp [e2]; omega), List.getElem_append_left (by simp [e2]; omega), List.getElem_take]
          · rw [if_neg (by omega), k1 (i + 1) h1, List.getElem_append_right (by simp [e2]; omega), List.getElem_append_right (by simp [e2]; omega)]
            simp only [List.getElem_drop, List.length_take, e2]
            congr 1; omega
    rw [key]
    simp [Mem.set, setR, f1, f2, l3]
  · rw [if_neg e] at h
    refine Wp.stor (wu _ (by simp [objL])) (Wp.fin (h _ ?_))
    rw [obj_eq, obj_eq]
    simp only [arr_set_neg, e4]
    simp [Mem.set, f1, f2, l3]

theorem wp_divNEnd {m : Mem} {u : Nat} {nu : Int} (ru : ∀ l, objL c.N u l = true → R0 l = true) (wu : ∀ l, objL c.N u l = true → W0 l = true)
    (h : ∀ m', obj c m' u = (if (obj c m u).exp < -(c.maxExp : Int) then DW.zero c else { obj c m u with neg := nu != 0 }) → P m') :
    Wp R0 W0 (divNEnd c u nu) m P := by
  have hN := N_pos c
  unfold divNEnd
  refine Wp.load (ru _ (by simp [objL])) (Wp.ite (fun e => ?_) (fun e => ?_))
  · rw [if_pos (show (obj c m u).exp < -(c.maxExp : Int) from e)] at h
    exact wp_const c (by simp [DW.zero, DW.fromLst]; omega) wu h
  · rw [if_neg (show ¬ (obj c m u).exp < -(c.maxExp : Int) from e)] at h
    refine Wp.stor (wu _ (by simp [objL])) (Wp.fin (h _ ?_))
    rw [obj_eq, obj_eq]
    simp only [arr_set_neg]
    simp [Mem.set]

theorem wp_divN {m : Mem} {u n : Nat} {est : DW → DW} {fdig : Nat} (hn : n < c.B) (ru : ∀ l, objL c.N u l = true → R0 l = true) (wu : ∀ l, objL c.N u l = true → W0 l = true)
    (pu : 1 ≤ (obj c m u).prec ∧ (obj c m u).prec ≤ c.N) (h : ∀ m', obj c m' u = DW.divULL c est fdig (obj c m u) n → P m') : Wp R0 W0 (divNProg c u n) m P := by
  have hN := N_pos c
  unfold divNProg
  unfold DW.divULL at h
  refine Wp.load (ru _ (by simp [objL])) (Wp.stor (wu _ (by simp [objL])) (Wp.ite (fun e => ?_) (fun e => ?_)))
  · dsimp only at h
    rw [if_pos e] at h
    exact wp_const c (by simp [DW.zero, DW.fromLst]; omega) wu h
  dsimp only at h
  rw [if_neg e] at h
  refine Wp.load (ru _ (by simp [objL, hN])) ?_
  have l0 : (m.set (neg u) 0) (limb u 0) = m (limb u 0) := by simp [Mem.set]
  rw [l0]
  have e0 : obj c (m.set (neg u) 0) u = { obj c m u with neg := false } := by
    rw [obj_eq, obj_eq]; simp only [arr_set_neg]; simp [Mem.set]
  refine Wp.ite (fun e => ?_) (fun e => ?_)
  · rw [if_pos ((isZero_obj c m u).mpr e)] at h
    exact Wp.fin (h _ e0)
  rw [if_neg (fun hc => e ((isZero_obj c m u).mp hc)), if_neg (Nat.not_le.mpr hn)] at h
  refine Wp.ite (fun e => ?_) (fun e => ?_)
  swap
  · rw [if_neg e] at h
    refine wp_divNEnd c ru wu fun m' hm' => h m' ?_
    rw [hm', e0]
    simp [obj]
  rw [if_pos e] at h
  refine Wp.load (ru _ (by simp [objL])) ?_
  have l2 : ((m.set (neg u) 0) (prec u)).toNat = (obj c m u).prec := by simp [Mem.set, obj]
  rw [l2]
  have l3 : (m (prec u)).toNat = (obj c m u).prec := by simp [obj]
  have l4 : (obj c m u).neg = (m (neg u) != 0) := by simp [obj]
  have l5 : (obj c m u).exp = m (exp u) := by simp [obj]
  generalize hp : (obj c m u).prec = p at *
  refine Wp.divLP p 0 0 _ (fun i hi => ru _ (by simp [objL]; omega)) (fun i hi => wu _ (by simp [objL]; omega)) ?_
  rw [arr_set_neg]
  have e1 : (obj c m u).data.take p = arr m u 0 p := by rw [obj_eq]; exact arr_take m u 0 pu.2
  rw [e1] at h
  have e2 : (divLoop c.L n 0 (arr m u 0 p)).1.length = p := by rw [divLoop_length, arr_length]
  have e3 : (obj c m u).data = arr m u 0 c.N := by rw [obj_eq]
  rw [e3] at h
  generalize divLoop c.L n 0 (arr m u 0 p) = s at h e2 ⊢
  have e4 := arr_setL (m := m.set (neg u) 0) (a := u) e2 pu.2
  rw [arr_set_neg] at e4
  have e5 : ∀ l, (∀ a i, l ≠ limb a i) → (setR (m.set (neg u) 0) u 0 p fun i => (s.1.getD i 0 : Nat)) l = (m.set (neg u) 0) l := by
    intro l hl; cases l <;> simp [setR] at hl ⊢
  generalize (setR (m.set (neg u) 0) u 0 p fun i => (s.1.getD i 0 : Nat)) = m1 at *
  have f1 : m1 (exp u) = m (exp u) := by rw [e5 _ (by simp)]; simp [Mem.set]
  have f2 : m1 (prec u) = m (prec u) := by rw [e5 _ (by simp)]; simp [Mem.set]
  have f3 : m1 (neg u) = 0 := by rw [e5 _ (by simp)]; simp [Mem.set]
  have eo : obj c m1 u = { data := s.1 ++ (arr m u 0 c.N).drop p, exp := (obj c m u).exp, neg := false, prec := p } := by
    rw [obj_eq, e4, f1, f2, f3, l3, l5]; simp
  have hlen : (s.1 ++ (arr m u 0 c.N).drop p).length = c.N := by simp [e2, arr_length]; omega
  generalize hd : s.1 ++ (arr m u 0 c.N).drop p = d at *
  have k1 : ∀ j (hj : j < c.N), (m1 (limb u j)).toNat = d[j]'(by omega) := by
    intro j hj
    have := arr_getElem m1 u c.N 0 j (by rw [arr_length]; exact hj)
    rw [Nat.zero_add] at this
    rw [← this]; simp only [e4]
  have k0 : (m1 (limb u 0)).toNat = d.headD 0 := by
    rw [k1 0 hN]
    cases d with
    | nil => simp at hlen; omega
    | cons a as => rfl
  refine Wp.load (ru _ (by simp [objL, hN])) ?_
  rw [k0]
  refine Wp.ite (fun e => ?_) (fun e => ?_)
  swap
  · rw [if_neg e] at h
    refine wp_divNEnd c ru wu fun m' hm' => h m' ?_
    rw [hm', eo, l4]
  rw [if_pos e] at h
  refine Wp.load (ru _ (by simp [objL])) (Wp.stor (wu _ (by simp [objL])) ?_)
  refine Wp.copyF _ _ _ _ (fun _ => by omega) (fun i hi => ru _ (by simp [objL]; omega)) (fun i hi => wu _ (by simp [objL]; omega)) ?_
  refine Wp.stor (wu _ (by simp [objL]; omega)) ?_
  refine wp_divNEnd c ru wu fun m' hm' => h m' ?_
  have key : arr ((setR (m1.set (exp u) (m1 (exp u) - c.ed)) u 0 (p - 2) fun i => (m1.set (exp u) (m1 (exp u) - c.ed)) (limb u (1 + i))).set (limb u (p - 1)) ((s.2 * c.B / n) % c.L.W : Nat)) u 0 c.N =
      ((d.drop 1).take (p - 2) ++ d.drop (p - 2)).set (p - 1) ((s.2 * c.B / n) % c.L.W) := by
    apply List.ext_getElem
    · simp [arr_length, hlen]; omega
    · intro i h1 h2
      rw [arr_length] at h1
      rw [arr_getElem, Nat.zero_add, List.getElem_set]
      by_cases hi : p - 1 = i
      · rw [if_pos hi]; subst hi; simp only [Mem.set, if_true, Int.toNat_natCast]
      · rw [if_neg hi]
        have hi' : ¬ i = p - 1 := fun h => hi h.symm
        simp only [Mem.set, setR, Loc.limb.injEq, true_and, Nat.zero_le, Nat.zero_add, reduceCtorEq, if_false, hi']
        by_cases hk : i < p - 2
        · rw [if_pos hk, k1 _ (by omega), List.getElem_append_left (by simp [hlen]; omega), List.getElem_take, List.getElem_drop]
          congr 1
        · rw [if_neg hk, k1 _ h1, List.getElem_append_right (by simp [hlen]; omega), List.getElem_drop]
          congr 1; simp [hlen]; omega
  rw [hm', obj_eq, key]
  simp [Mem.set, setR, f1, f2, l3, l4, l5]

end Thr
end WD
