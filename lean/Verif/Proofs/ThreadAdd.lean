import Verif.Proofs.ThreadWp
/-
  `operator+=` and `operator-=` as sequences of memory accesses: the accesses stay inside the objects and the temporary array, and the object holds the sum of the model.
-/
namespace WD
namespace Thr
open Prog Loc

variable (c : Cfg)

/-- The locations of object o (the N limbs and the three other members). -/
def objL (N o : Nat) : Loc → Bool
  | limb a i => decide (a = o ∧ i < N)
  | exp a => decide (a = o)
  | neg a => decide (a = o)
  | prec a => decide (a = o)

/-- The first n limbs of array t. -/
def bufL (n t : Nat) : Loc → Bool
  | limb a i => decide (a = t ∧ i < n)
  | _ => false

theorem N_pos : 0 < c.N := by unfold Cfg.N; exact Nat.succ_pos _

theorem obj_eq (m : Mem) (o : Nat) : obj c m o = { data := arr m o 0 c.N, exp := m (exp o), neg := m (neg o) != 0, prec := (m (prec o)).toNat } := by
  unfold obj; rw [arr_range]

theorem arr_shr {m : Mem} {t v k N : Nat} (hk : k ≤ N) :
    arr (setR (setR m t k (N - k) fun i => m (limb v (0 + i))) t 0 k fun _ => 0) t 0 N = DW.shr N k (arr m v 0 N) := by
  apply List.ext_getElem
  · simp [arr_length, DW.shr]; omega
  · intro i h1 h2
    rw [arr_length] at h1
    rw [arr_getElem]
    simp only [DW.shr, List.getElem_append, List.length_replicate, List.getElem_replicate, List.getElem_take, arr_getElem, setR, true_and, Nat.zero_add, Nat.zero_le]
    by_cases hi : i < k
    · rw [if_pos hi, dif_pos hi]; rfl
    · rw [if_neg hi, dif_neg hi, if_pos (by omega)]

theorem arr_setL {m : Mem} {a p N : Nat} {l : List Nat} (hl : l.length = p) (hp : p ≤ N) :
    arr (setR m a 0 p fun i => (l.getD i 0 : Nat)) a 0 N = l ++ (arr m a 0 N).drop p := by
  rw [arr_setR (by omega)]
  simp only [List.take_zero, List.nil_append, Nat.zero_add, Int.toNat_natCast]
  congr 1
  apply List.ext_getElem
  · simp [hl]
  · intro i h1 h2; simp [List.getD_eq_getElem?_getD, List.getElem?_eq_getElem h2]


theorem arr_drop (m : Mem) (a N p : Nat) : (arr m a 0 N).drop p = arr m a p (N - p) := by
  apply List.ext_getElem
  · simp [arr_length]
  · intro i h1 h2
    rw [List.getElem_drop, arr_getElem, arr_getElem]; simp

theorem arr_set_exp {m : Mem} {o : Nat} {v : Int} {a i n : Nat} : arr (m.set (exp o) v) a i n = arr m a i n := arr_congr fun _ _ => by simp [Mem.set]
theorem arr_set_neg {m : Mem} {o : Nat} {v : Int} {a i n : Nat} : arr (m.set (neg o) v) a i n = arr m a i n := arr_congr fun _ _ => by simp [Mem.set]
theorem arr_set_prec {m : Mem} {o : Nat} {v : Int} {a i n : Nat} : arr (m.set (prec o) v) a i n = arr m a i n := arr_congr fun _ _ => by simp [Mem.set]

theorem wp_assign {R0 W0 : Loc → Bool} {m : Mem} {P : Mem → Prop} {u v : Nat} (hv : ∀ l, objL c.N v l = true → R0 l = true) (hu : ∀ l, objL c.N u l = true → W0 l = true)
    (h : ∀ m', obj c m' u = obj c m v → P m') : Wp R0 W0 (assignP c u v) m P := by
  unfold assignP
  refine Wp.ite (fun e => Wp.fin (h m (by rw [e]))) (fun e => ?_)
  refine Wp.copyF c.N 0 0 m (fun _ => Nat.le_refl 0) (fun i hi => hv _ (by simp [objL, hi])) (fun i hi => hu _ (by simp [objL, hi])) ?_
  refine Wp.load (hv _ (by simp [objL])) (Wp.stor (hu _ (by simp [objL])) (Wp.load (hv _ (by simp [objL])) (Wp.stor (hu _ (by simp [objL]))
    (Wp.load (hv _ (by simp [objL])) (Wp.stor (hu _ (by simp [objL])) (Wp.fin (h _ ?_)))))))
  rw [obj_eq, obj_eq]
  have e1 : v ≠ u := fun h => e h.symm
  have e2 : arr (setR m u 0 c.N fun i => m (limb v (0 + i))) u 0 c.N = arr m v 0 c.N := arr_congr fun j hj => by simp [setR, hj]
  simp only [arr_set_exp, arr_set_neg, arr_set_prec, e2]
  simp [Mem.set, setR]

theorem wp_const {R0 W0 : Loc → Bool} {m : Mem} {P : Mem → Prop} {u : Nat} {x : DW} (hx : x.data.length = c.N) (hu : ∀ l, objL c.N u l = true → W0 l = true)
    (h : ∀ m', obj c m' u = x → P m') : Wp R0 W0 (constP u x) m P := by
  unfold constP
  refine Wp.storeP _ 0 m (fun i hi => hu _ (by simp [objL]; omega)) ?_
  refine Wp.stor (hu _ (by simp [objL])) (Wp.stor (hu _ (by simp [objL])) (Wp.stor (hu _ (by simp [objL])) (Wp.fin (h _ ?_))))
  rw [obj_eq]
  simp only [arr_set_exp, arr_set_neg, arr_set_prec, hx]
  rw [arr_setL hx (Nat.le_refl _), arr_drop]
  simp [Mem.set, arr, ofB]
  cases x with
  | mk d e n p => simp; cases n <;> simp

theorem wp_carry {R0 W0 : Loc → Bool} {m : Mem} {P : Mem → Prop} {u p carry : Nat} (hr : ∀ l, objL c.N u l = true → R0 l = true) (hu : ∀ l, objL c.N u l = true → W0 l = true)
    (hp : 1 ≤ p) (hpN : p ≤ c.N)
    (h : ∀ m', obj c m' u = (if carry ≠ 0 then { obj c m u with data := DW.carryIn c.N p (obj c m u).data carry, exp := (obj c m u).exp + c.ed } else obj c m u) → P m') :
    Wp R0 W0 (carryP c u p carry) m P := by
  unfold carryP
  refine Wp.ite (fun e => ?_) (fun e => Wp.fin (h m (by rw [if_neg e])))
  rw [if_pos e] at h
  refine Wp.copyB _ m (fun _ => by omega) (fun i hi => hr _ (by simp [objL]; omega)) (fun i hi => hu _ (by simp [objL]; omega)) ?_
  refine Wp.stor (hu _ (by simp [objL]; omega)) (Wp.load (hr _ (by simp [objL])) (Wp.stor (hu _ (by simp [objL])) (Wp.fin (h _ ?_))))
  rw [obj_eq, obj_eq]
  simp only [arr_set_exp]
  have e2 : arr ((setR m u (c.N - (p - 1)) (p - 1) fun i => m (limb u (0 + i))).set (limb u 0) (carry : Nat)) u 0 c.N = DW.carryIn c.N p (arr m u 0 c.N) carry := by
    apply List.ext_getElem
    · simp [arr_length, DW.carryIn]; omega
    · intro i h1 h2
      rw [arr_length] at h1
      rw [arr_getElem]
      simp only [DW.carryIn, List.getElem_set, List.getElem_append, List.length_take, List.getElem_take, arr_getElem, arr_length, Nat.zero_add, Mem.set, setR, true_and, Loc.limb.injEq]
      by_cases hi : i = 0
      · simp [hi]
      · have hi' : ¬ (0 = i) := fun h => hi h.symm
        simp only [hi, hi', if_false]
        by_cases hk : i < c.N - (p - 1)
        · rw [if_neg (by omega), dif_pos (by omega)]
        · rw [if_pos (by omega), dif_neg (by omega)]
          congr 3; omega
  rw [e2]
  simp [Mem.set, setR]

theorem wp_justify {R0 W0 : Loc → Bool} {m : Mem} {P : Mem → Prop} {u p : Nat} (hr : ∀ l, objL c.N u l = true → R0 l = true) (hu : ∀ l, objL c.N u l = true → W0 l = true)
    (hpN : p ≤ c.N) (h : ∀ m', obj c m' u = DW.justify c p (obj c m u) → P m') : Wp R0 W0 (justifyP c u p) m P := by
  have fin : ∀ m1, (∀ m', obj c m' u = (if (obj c m1 u).data.all (· == 0) then DW.zero c else obj c m1 u) → P m') →
      Wp R0 W0 (fun k => allP (· == 0) u 0 c.N fun z => if z then constP u (DW.zero c) k else k) m1 P := by
    intro m1 h
    refine Wp.allP c.N 0 (fun j hj => hr _ (by simp [objL]; omega)) (Wp.ite (fun e => ?_) (fun e => ?_))
    · refine wp_const c (by have := N_pos c; simp [DW.zero, DW.fromLst]; omega) hu (fun m' hm' => h m' ?_)
      rw [hm', obj_eq, if_pos e]
    · refine Wp.fin (h m1 ?_)
      rw [obj_eq, if_neg e]
  unfold justifyP
  refine Wp.findP p 0 _ (fun j hj => hr _ (by simp [objL]; omega)) ?_
  have hlen : ((obj c m u).data.take p).length = p := by rw [obj_eq]; simp [arr_length, hpN]
  have hsj : DW.leadZeros (arr m u 0 p) = DW.leadZeros ((obj c m u).data.take p) := by rw [obj_eq]; simp only [arr_take _ _ _ hpN]
  have hle : ∀ l : List Nat, DW.leadZeros l ≤ l.length := by
    intro l
    induction l with
    | nil => simp [DW.leadZeros]
    | cons x xs ih => simp only [DW.leadZeros, List.length_cons]; split <;> omega
  have hle := hle ((obj c m u).data.take p)
  rw [hlen] at hle
  rw [hsj]
  unfold DW.justify at h
  simp only [hlen] at h
  generalize DW.leadZeros ((obj c m u).data.take p) = sj at *
  refine Wp.ite (fun e => ?_) (fun e => Wp.ite (fun e2 => ?_) (fun e2 => ?_))
  · rw [if_pos e] at h; exact fin m h
  · rw [if_neg e, if_pos e2] at h
    refine Wp.stor (hu _ (by simp [objL])) (Wp.stor (hu _ (by simp [objL])) (fin _ ?_))
    have : obj c ((m.set (neg u) 0).set (exp u) 0) u = { obj c m u with neg := false, exp := 0 } := by
      rw [obj_eq, obj_eq, arr_set_exp, arr_set_neg]; simp [Mem.set]
    rw [this]; exact h
  · rw [if_neg e, if_neg e2] at h
    refine Wp.copyF _ sj 0 m (fun _ => by omega) (fun i hi => hr _ (by simp [objL]; omega)) (fun i hi => hu _ (by simp [objL]; omega)) ?_
    refine Wp.fillZ sj _ _ (fun i hi => hu _ (by simp [objL]; omega)) ?_
    refine Wp.load (hr _ (by simp [objL])) (Wp.stor (hu _ (by simp [objL])) (fin _ ?_))
    have e3 : arr (setR (setR m u 0 (c.N - sj) fun i => m (limb u (sj + i))) u (c.N - sj) sj fun _ => 0) u 0 c.N = (arr m u 0 c.N).drop sj ++ List.replicate sj 0 := by
      apply List.ext_getElem
      · simp [arr_length]; omega
      · intro i h1 h2
        rw [arr_length] at h1
        rw [arr_getElem]
        simp only [List.getElem_append, List.length_drop, List.getElem_drop, List.getElem_replicate, arr_getElem, arr_length, Nat.zero_add, setR, true_and, Nat.zero_le, Nat.sub_zero]
        by_cases hi : i < c.N - sj
        · rw [if_neg (by omega), if_pos hi, dif_pos hi]
        · rw [if_pos (by omega), dif_neg hi]; rfl
    have e4 : ∀ x, obj c ((setR (setR m u 0 (c.N - sj) fun i => m (limb u (sj + i))) u (c.N - sj) sj fun _ => 0).set (exp u) x) u =
        { obj c m u with data := (obj c m u).data.drop sj ++ List.replicate sj 0, exp := x } := by
      intro x
      rw [obj_eq, obj_eq, arr_set_exp, e3]; simp [Mem.set, setR]
    rw [e4]
    have e5 : (setR (setR m u 0 (c.N - sj) fun i => m (limb u (sj + i))) u (c.N - sj) sj fun _ => 0) (exp u) = (obj c m u).exp := by
      rw [obj_eq]; simp [setR]
    rw [e5]; exact h

theorem d0_obj (m : Mem) (o : Nat) : (obj c m o).d0 = (m (limb o 0)).toNat := by
  rw [obj_eq]
  have := N_pos c
  obtain ⟨n, hn⟩ : ∃ n, c.N = n + 1 := ⟨c.N - 1, by omega⟩
  rw [hn]
  rfl

theorem isZero_obj (m : Mem) (o : Nat) : (obj c m o).isZero = true ↔ (m (limb o 0)).toNat = 0 := by
  unfold DW.isZero
  rw [d0_obj, beq_iff_eq]

/-- Footprint of a statement on u with operand v and scratch t: read. -/
theorem wp_add {R0 W0 : Loc → Bool} {m : Mem} {P : Mem → Prop} {t u v : Nat} (htu : t ≠ u) (htv : t ≠ v)
    (ru : ∀ l, objL c.N u l = true → R0 l = true) (rv : ∀ l, objL c.N v l = true → R0 l = true) (rt : ∀ l, bufL c.N t l = true → R0 l = true)
    (wu : ∀ l, objL c.N u l = true → W0 l = true) (wt : ∀ l, bufL c.N t l = true → W0 l = true)
    (pu : (obj c m u).prec ≤ c.N) (h : ∀ m', obj c m' u = DW.addAssign c (obj c m u) (obj c m v) → P m') : Wp R0 W0 (addProg c t u v) m P := by
  have hed : 0 < c.ed := by unfold Cfg.ed; cases c.L <;> decide
  have hNp := N_pos c
  unfold addProg
  refine Wp.load (ru _ (by simp [objL]; omega)) (Wp.ite (fun e0 => ?_) (fun e0 => ?_))
  · refine wp_assign c rv wu fun m' hm' => h m' ?_
    unfold DW.addAssign
    rw [if_pos ((isZero_obj c m u).mpr e0), hm']
  refine Wp.load (ru _ (by simp [objL])) (Wp.load (rv _ (by simp [objL])) (Wp.load (ru _ (by simp [objL])) (Wp.load (rv _ (by simp [objL]))
    (Wp.load (rv _ (by simp [objL]; omega)) ?_))))
  unfold DW.addAssign at h
  rw [if_neg (fun hc => e0 ((isZero_obj c m u).mp hc))] at h
  have hpu : (m (prec u)).toNat = (obj c m u).prec := by rw [obj_eq]
  have hpv : (m (prec v)).toNat = (obj c m v).prec := by rw [obj_eq]
  have heu : m (exp u) = (obj c m u).exp := by rw [obj_eq]
  have hev : m (exp v) = (obj c m v).exp := by rw [obj_eq]
  simp only [isZero_obj, ← hpu, ← hpv, ← heu, ← hev] at h
  rw [← hpu] at pu
  dsimp only
  have hpN : min (m (prec u)).toNat (m (prec v)).toNat ≤ c.N := by omega
  generalize min (m (prec u)).toNat (m (prec v)).toNat = p at *
  refine Wp.ite (fun e1 => Wp.fin (h m (by rw [if_pos e1]))) (fun e1 => Wp.ite (fun e2 => ?_) (fun e2 => ?_))
  · rw [if_neg e1, if_pos e2] at h
    exact wp_assign c rv wu h
  rw [if_neg e1, if_neg e2] at h
  have hofs : (m (exp u) - m (exp v)).natAbs / c.ed < p := by
    rw [Nat.div_lt_iff_lt_mul hed]
    have : ((m (exp u) - m (exp v)).natAbs : Int) < p * c.ed := by omega
    exact_mod_cast this
  have hp1 : 1 ≤ p := by exact Nat.lt_of_le_of_lt (Nat.zero_le _) hofs
  have hself : u = v → m (exp u) - m (exp v) = 0 := by intro e; subst e; omega
  generalize m (exp u) - m (exp v) = oe at *
  have hz : oe = 0 → oe.natAbs / c.ed = 0 := by intro e; rw [e]; simp
  generalize oe.natAbs / c.ed = nq at *
  have hofs2 : ∀ ofs : Int, ofs = (if 0 ≤ oe then (nq : Int) else -(nq : Int)) →
      ofs.toNat < p ∧ (-ofs).toNat < p ∧ (u = v → ofs = 0) := by
    intro ofs hof
    refine ⟨?_, ?_, fun e => ?_⟩
    · rw [hof]; split <;> omega
    · rw [hof]; split <;> omega
    · rw [hof, hz (hself e)]; simp
  have hofs3 := hofs2 _ rfl
  clear hofs2
  generalize (if 0 ≤ oe then (nq : Int) else -(nq : Int)) = ofs at *
  obtain ⟨b1, b2, b3⟩ := hofs3
  refine Wp.load (ru _ (by simp [objL])) (Wp.load (rv _ (by simp [objL])) ?_)
  have hnu : (m (neg u) != 0) = (obj c m u).neg := by rw [obj_eq]
  have hnv : (m (neg v) != 0) = (obj c m v).neg := by rw [obj_eq]
  rw [hnu, hnv]
  have tk : ∀ (m : Mem) o, (obj c m o).data.take p = arr m o 0 p := by intro m o; rw [obj_eq]; exact arr_take _ _ _ hpN
  refine Wp.ite (fun es => ?_) (fun es => ?_)
  · rw [if_pos es] at h
    refine Wp.ite (fun e3 => ?_) (fun e3 => ?_)
    · -- 983-997
      refine Wp.copyF _ 0 ofs.toNat m (fun e => absurd e.symm htv) (fun i hi => rv _ (by simp [objL]; omega)) (fun i hi => wt _ (by simp [bufL]; omega)) ?_
      refine Wp.fillZ ofs.toNat 0 _ (fun i hi => wt _ (by simp [bufL]; omega)) ?_
      have s1 := arr_shr (m := m) (t := t) (v := v) (k := ofs.toNat) (N := c.N) (by omega)
      have g1 : ∀ i n, arr (setR (setR m t ofs.toNat (c.N - ofs.toNat) fun i => m (limb v (0 + i))) t 0 ofs.toNat fun _ => 0) u i n = arr m u i n := fun i n => by
        rw [arr_setR_ne htu.symm, arr_setR_ne htu.symm]
      have g2 : (setR (setR m t ofs.toNat (c.N - ofs.toNat) fun i => m (limb v (0 + i))) t 0 ofs.toNat fun _ => 0) (exp u) = m (exp u) := rfl
      have g3 : (setR (setR m t ofs.toNat (c.N - ofs.toNat) fun i => m (limb v (0 + i))) t 0 ofs.toNat fun _ => 0) (neg u) = m (neg u) := rfl
      have g4 : (setR (setR m t ofs.toNat (c.N - ofs.toNat) fun i => m (limb v (0 + i))) t 0 ofs.toNat fun _ => 0) (prec u) = m (prec u) := rfl
      generalize (setR (setR m t ofs.toNat (c.N - ofs.toNat) fun i => m (limb v (0 + i))) t 0 ofs.toNat fun _ => 0) = m1 at *
      refine Wp.addP p 0 m1 (fun i hi => ru _ (by simp [objL]; omega)) (fun i hi => rt _ (by simp [bufL]; omega)) (fun i hi => wu _ (by simp [objL]; omega)) ?_
      refine wp_carry c ru wu hp1 hpN fun m' hm' => h m' ?_
      unfold DW.addSame
      rw [if_pos e3, if_pos e3]
      have a1 : arr m1 u 0 p = (obj c m u).data.take p := by rw [g1, tk]
      have a2 : arr m1 t 0 p = (DW.shr c.N ofs.toNat (obj c m v).data).take p := by rw [← arr_take m1 t 0 hpN, s1, obj_eq]
      rw [a1, a2] at hm'
      have hl : (addC c.L 0 ((obj c m u).data.take p) ((DW.shr c.N ofs.toNat (obj c m v).data).take p)).1.length = p := by
        rw [← a1, ← a2, addC_len _ _ _ _ (by rw [arr_length, arr_length]), arr_length]
      unfold addN
      generalize addC c.L 0 ((obj c m u).data.take p) ((DW.shr c.N ofs.toNat (obj c m v).data).take p) = s at *
      have o1 : obj c (setR m1 u 0 p fun i => (s.1.getD i 0 : Nat)) u = { obj c m u with data := s.1 ++ (obj c m u).data.drop p } := by
        rw [obj_eq, obj_eq, arr_setL hl hpN, g1]
        simp [setR, g2, g3, g4]
      rw [hm', o1]
    · -- 1001-1048
      have huv : u ≠ v := fun e => by have := b3 e; omega
      refine Wp.copyF _ 0 (-ofs).toNat m (fun e => absurd e.symm htu) (fun i hi => ru _ (by simp [objL]; omega)) (fun i hi => wt _ (by simp [bufL]; omega)) ?_
      refine Wp.fillZ (-ofs).toNat 0 _ (fun i hi => wt _ (by simp [bufL]; omega)) ?_
      have s1 := arr_shr (m := m) (t := t) (v := u) (k := (-ofs).toNat) (N := c.N) (by omega)
      have g1 : ∀ o, o ≠ t → ∀ i n, arr (setR (setR m t (-ofs).toNat (c.N - (-ofs).toNat) fun i => m (limb u (0 + i))) t 0 (-ofs).toNat fun _ => 0) o i n = arr m o i n := fun o ho i n => by
        rw [arr_setR_ne ho, arr_setR_ne ho]
      have g2 : ∀ o, (setR (setR m t (-ofs).toNat (c.N - (-ofs).toNat) fun i => m (limb u (0 + i))) t 0 (-ofs).toNat fun _ => 0) (exp o) = m (exp o) := fun _ => rfl
      have g3 : ∀ o, (setR (setR m t (-ofs).toNat (c.N - (-ofs).toNat) fun i => m (limb u (0 + i))) t 0 (-ofs).toNat fun _ => 0) (neg o) = m (neg o) := fun _ => rfl
      have g4 : ∀ o, (setR (setR m t (-ofs).toNat (c.N - (-ofs).toNat) fun i => m (limb u (0 + i))) t 0 (-ofs).toNat fun _ => 0) (prec o) = m (prec o) := fun _ => rfl
      generalize (setR (setR m t (-ofs).toNat (c.N - (-ofs).toNat) fun i => m (limb u (0 + i))) t 0 (-ofs).toNat fun _ => 0) = m1 at *
      refine Wp.addP p 0 m1 (fun i hi => rt _ (by simp [bufL]; omega)) (fun i hi => rv _ (by simp [objL]; omega)) (fun i hi => wt _ (by simp [bufL]; omega)) ?_
      refine Wp.copyF p 0 0 _ (fun e => absurd e htu) (fun i hi => rt _ (by simp [bufL]; omega)) (fun i hi => wu _ (by simp [objL]; omega)) ?_
      refine Wp.load (rv _ (by simp [objL])) (Wp.stor (wu _ (by simp [objL])) (wp_carry c ru wu hp1 hpN fun m' hm' => h m' ?_))
      unfold DW.addSame
      rw [if_neg e3, if_neg e3]
      have a1 : arr m1 v 0 p = (obj c m v).data.take p := by rw [g1 v htv.symm, tk]
      have a2 : arr m1 t 0 p = (DW.shr c.N (-ofs).toNat (obj c m u).data).take p := by rw [← arr_take m1 t 0 hpN, s1, obj_eq]
      rw [a1, a2] at hm'
      have hl : (addC c.L 0 ((DW.shr c.N (-ofs).toNat (obj c m u).data).take p) ((obj c m v).data.take p)).1.length = p := by
        rw [← a1, ← a2, addC_len _ _ _ _ (by rw [arr_length, arr_length]), arr_length]
      unfold addN
      generalize addC c.L 0 ((DW.shr c.N (-ofs).toNat (obj c m u).data).take p) ((obj c m v).data.take p) = s at *
      have o1 : obj c ((setR (setR m1 t 0 p fun i => (s.1.getD i 0 : Nat)) u 0 p fun i => (setR m1 t 0 p fun i => (s.1.getD i 0 : Nat)) (limb t (0 + i))).set (exp u)
          ((setR (setR m1 t 0 p fun i => (s.1.getD i 0 : Nat)) u 0 p fun i => (setR m1 t 0 p fun i => (s.1.getD i 0 : Nat)) (limb t (0 + i))) (exp v))) u =
          { obj c m u with data := s.1 ++ (obj c m u).data.drop p, exp := (obj c m v).exp } := by
        have e5 : (setR (setR m1 t 0 p fun i => (s.1.getD i 0 : Nat)) u 0 p fun i => (setR m1 t 0 p fun i => (s.1.getD i 0 : Nat)) (limb t (0 + i))) =
            setR (setR m1 t 0 p fun i => (s.1.getD i 0 : Nat)) u 0 p fun i => (s.1.getD i 0 : Nat) := setR_congr fun i hi => by simp [setR, hi]
        rw [e5, obj_eq, obj_eq, obj_eq, arr_set_exp, arr_setL hl hpN, arr_setR_ne htu.symm, g1 u htu.symm]
        simp [Mem.set, setR, g2, g3, g4]
      rw [hm', o1]
  · rw [if_neg es] at h
    have huv : u ≠ v := fun e => es (by rw [e])
    unfold DW.addOpp at h
    have hbig : (0 < ofs ∨ (ofs = 0 ∧ compareRanges ((obj c m u).data.take p) ((obj c m v).data.take p) > 0)) → Wp R0 W0 (fun k => copyF v 0 t ofs.toNat (c.N - ofs.toNat)
        (fillZ t 0 ofs.toNat (subP c.L u u t p 0 fun _ => justifyP c u p k))) m P := by
      intro hb
      simp only [if_pos hb] at h
      refine Wp.copyF _ 0 ofs.toNat m (fun e => absurd e.symm htv) (fun i hi => rv _ (by simp [objL]; omega)) (fun i hi => wt _ (by simp [bufL]; omega)) ?_
      refine Wp.fillZ ofs.toNat 0 _ (fun i hi => wt _ (by simp [bufL]; omega)) ?_
      have s1 := arr_shr (m := m) (t := t) (v := v) (k := ofs.toNat) (N := c.N) (by omega)
      have g1 : ∀ i n, arr (setR (setR m t ofs.toNat (c.N - ofs.toNat) fun i => m (limb v (0 + i))) t 0 ofs.toNat fun _ => 0) u i n = arr m u i n := fun i n => by
        rw [arr_setR_ne htu.symm, arr_setR_ne htu.symm]
      have g2 : (setR (setR m t ofs.toNat (c.N - ofs.toNat) fun i => m (limb v (0 + i))) t 0 ofs.toNat fun _ => 0) (exp u) = m (exp u) := rfl
      have g3 : (setR (setR m t ofs.toNat (c.N - ofs.toNat) fun i => m (limb v (0 + i))) t 0 ofs.toNat fun _ => 0) (neg u) = m (neg u) := rfl
      have g4 : (setR (setR m t ofs.toNat (c.N - ofs.toNat) fun i => m (limb v (0 + i))) t 0 ofs.toNat fun _ => 0) (prec u) = m (prec u) := rfl
      generalize (setR (setR m t ofs.toNat (c.N - ofs.toNat) fun i => m (limb v (0 + i))) t 0 ofs.toNat fun _ => 0) = m1 at *
      refine Wp.subP p 0 m1 (fun i hi => ru _ (by simp [objL]; omega)) (fun i hi => rt _ (by simp [bufL]; omega)) (fun i hi => wu _ (by simp [objL]; omega)) ?_
      refine wp_justify c ru wu hpN fun m' hm' => h m' ?_
      have a1 : arr m1 u 0 p = (obj c m u).data.take p := by rw [g1, tk]
      have a2 : arr m1 t 0 p = (DW.shr c.N ofs.toNat (obj c m v).data).take p := by rw [← arr_take m1 t 0 hpN, s1, obj_eq]
      rw [a1, a2] at hm'
      have hl : (subC c.L 0 ((obj c m u).data.take p) ((DW.shr c.N ofs.toNat (obj c m v).data).take p)).1.length = p := by
        rw [← a1, ← a2, subC_len _ _ _ _ (by rw [arr_length, arr_length]), arr_length]
      unfold subN
      generalize subC c.L 0 ((obj c m u).data.take p) ((DW.shr c.N ofs.toNat (obj c m v).data).take p) = s at *
      have o1 : obj c (setR m1 u 0 p fun i => (s.1.getD i 0 : Nat)) u = { obj c m u with data := s.1 ++ (obj c m u).data.drop p } := by
        rw [obj_eq, obj_eq, arr_setL hl hpN, g1]
        simp [setR, g2, g3, g4]
      rw [hm', o1]
    have hrest : ¬ (0 < ofs ∨ (ofs = 0 ∧ compareRanges ((obj c m u).data.take p) ((obj c m v).data.take p) > 0)) → ∀ m1 : Mem,
        obj c m1 u = { obj c m u with data := if ofs ≠ 0 then DW.shr c.N (-ofs).toNat (obj c m u).data else (obj c m u).data } → obj c m1 v = obj c m v →
        Wp R0 W0 (fun k => copyF v 0 t 0 p (subP c.L t t u p 0 fun _ => copyF t 0 u 0 p (load (exp v) fun e => stor (exp u) e (load (neg v) fun n => stor (neg u) n (justifyP c u p k))))) m1 P := by
      intro hb m1 q1 q2
      simp only [if_neg hb] at h
      refine Wp.copyF p 0 0 m1 (fun e => absurd e.symm htv) (fun i hi => rv _ (by simp [objL]; omega)) (fun i hi => wt _ (by simp [bufL]; omega)) ?_
      have a2 : arr (setR m1 t 0 p fun i => m1 (limb v (0 + i))) t 0 p = (obj c m v).data.take p := by
        rw [← q2, tk]; exact arr_congr fun j hj => by simp [setR, hj]
      have a1 : ∀ i n, arr (setR m1 t 0 p fun i => m1 (limb v (0 + i))) u i n = arr m1 u i n := fun i n => arr_setR_ne htu.symm
      have g2 : ∀ o, (setR m1 t 0 p fun i => m1 (limb v (0 + i))) (exp o) = m1 (exp o) := fun _ => rfl
      have g3 : ∀ o, (setR m1 t 0 p fun i => m1 (limb v (0 + i))) (neg o) = m1 (neg o) := fun _ => rfl
      have g4 : ∀ o, (setR m1 t 0 p fun i => m1 (limb v (0 + i))) (prec o) = m1 (prec o) := fun _ => rfl
      generalize (setR m1 t 0 p fun i => m1 (limb v (0 + i))) = m2 at *
      refine Wp.subP p 0 m2 (fun i hi => rt _ (by simp [bufL]; omega)) (fun i hi => ru _ (by simp [objL]; omega)) (fun i hi => wt _ (by simp [bufL]; omega)) ?_
      refine Wp.copyF p 0 0 _ (fun e => absurd e htu) (fun i hi => rt _ (by simp [bufL]; omega)) (fun i hi => wu _ (by simp [objL]; omega)) ?_
      refine Wp.load (rv _ (by simp [objL])) (Wp.stor (wu _ (by simp [objL])) (Wp.load (rv _ (by simp [objL])) (Wp.stor (wu _ (by simp [objL]))
        (wp_justify c ru wu hpN fun m' hm' => h m' ?_))))
      have a3 : arr m2 u 0 p = (if ofs ≠ 0 then DW.shr c.N (-ofs).toNat (obj c m u).data else (obj c m u).data).take p := by
        rw [a1, ← tk, q1]
      rw [a2, a3] at hm'
      have hl : (subC c.L 0 ((obj c m v).data.take p) ((if ofs ≠ 0 then DW.shr c.N (-ofs).toNat (obj c m u).data else (obj c m u).data).take p)).1.length = p := by
        rw [← a2, ← a3, subC_len _ _ _ _ (by rw [arr_length, arr_length]), arr_length]
      unfold subN
      generalize subC c.L 0 ((obj c m v).data.take p) ((if ofs ≠ 0 then DW.shr c.N (-ofs).toNat (obj c m u).data else (obj c m u).data).take p) = s at *
      have e5 : (setR (setR m2 t 0 p fun i => (s.1.getD i 0 : Nat)) u 0 p fun i => (setR m2 t 0 p fun i => (s.1.getD i 0 : Nat)) (limb t (0 + i))) =
            setR (setR m2 t 0 p fun i => (s.1.getD i 0 : Nat)) u 0 p fun i => (s.1.getD i 0 : Nat) := setR_congr fun i hi => by simp [setR, hi]
      have r1 : m1 (exp v) = (obj c m v).exp := by rw [← q2, obj_eq]
      have r2 : (m1 (neg v) != 0) = (obj c m v).neg := by rw [← q2, obj_eq]
      have r3 : (m1 (prec u)).toNat = (obj c m u).prec := by rw [obj_eq] at q1; injection q1
      have r4 : arr m1 u 0 c.N = if ofs ≠ 0 then DW.shr c.N (-ofs).toNat (obj c m u).data else (obj c m u).data := by rw [obj_eq] at q1; injection q1
      have vu : v ≠ u := fun e => huv e.symm
      rw [hm', e5, obj_eq, arr_set_neg, arr_set_exp, arr_setL hl hpN, arr_setR_ne htu.symm, a1, r4]
      congr 1
      simp [Mem.set, setR, g2, g3, g4, r1, r2, r3, vu]
    refine Wp.ite (fun e3 => hbig (Or.inl e3)) (fun e3 => Wp.ite (fun e4 => ?_) (fun e4 => ?_))
    · refine Wp.cmpP p 0 (fun j hj => ru _ (by simp [objL]; omega)) (fun j hj => rv _ (by simp [objL]; omega)) ?_
      rw [← tk, ← tk]
      refine Wp.ite (fun e5 => hbig (Or.inr ⟨e4, e5⟩)) (fun e5 => hrest (fun hc => ?_) m ?_ rfl)
      · rcases hc with hc | hc
        · exact e3 hc
        · exact e5 hc.2
      · rw [if_neg (fun hc => hc e4)]
    · refine Wp.copyB _ m (fun _ => by omega) (fun i hi => ru _ (by simp [objL]; omega)) (fun i hi => wu _ (by simp [objL]; omega)) ?_
      refine Wp.fillZ _ 0 _ (fun i hi => wu _ (by simp [objL]; omega)) ?_
      refine hrest (fun hc => ?_) _ ?_ ?_
      · rcases hc with hc | hc
        · exact e3 hc
        · exact e4 hc.1
      · rw [if_pos e4, obj_eq, arr_shr (by omega), obj_eq]
        simp [setR]
      · rw [obj_eq, obj_eq, arr_setR_ne huv.symm, arr_setR_ne huv.symm]
        simp [setR]

end Thr
end WD
