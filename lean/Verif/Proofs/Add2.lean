import Verif.Proofs.Add

namespace WD
open DW

/-! ### Leading zeros and justification -/

theorem leadZeros_le (l : List Nat) : leadZeros l ≤ l.length := by
  induction l with
  | nil => simp [leadZeros]
  | cons x xs ih => simp only [leadZeros, List.length_cons]; split <;> omega

theorem leadZeros_take (l : List Nat) : l.take (leadZeros l) = List.replicate (leadZeros l) 0 := by
  induction l with
  | nil => simp [leadZeros]
  | cons x xs ih =>
    simp only [leadZeros]; split
    · next h => rw [List.take_succ_cons, List.replicate_succ, ih, h]
    · simp

theorem leadZeros_drop_head {l : List Nat} (h : leadZeros l < l.length) : (l.drop (leadZeros l)).headD 0 ≠ 0 := by
  induction l with
  | nil => simp at h
  | cons x xs ih =>
    simp only [leadZeros] at *; split
    · next hx => rw [if_pos hx] at h; rw [List.drop_succ_cons]; exact ih (by simpa using h)
    · next hx => simpa using hx

theorem leadZeros_eq_length {l : List Nat} : leadZeros l = l.length ↔ ∀ d ∈ l, d = 0 := by
  induction l with
  | nil => simp [leadZeros]
  | cons x xs ih =>
    simp only [leadZeros]
    split
    · next h => subst h; simp [ih]
    · next h =>
      simp only [List.length_cons, List.mem_cons, forall_eq_or_imp]
      constructor
      · intro h; omega
      · intro h'; exact absurd h'.1 h

theorem zero_WF (c : Cfg) : Full c (zero c) := by
  have h3 := c.three_le_N
  refine ⟨⟨?_, ?_, ?_, ?_, ?_, ?_⟩, ?_⟩
  · simp [zero, fromLst]; omega
  · simp only [zero, fromLst]
    rw [validLimbs_append]
    refine ⟨ValidLimbs.take _ ?_, validLimbs_replicate c.B_pos⟩
    intro x hx; simp at hx; subst hx; exact c.B_pos
  · simp [zero, fromLst]
  · simp [zero, fromLst]; omega
  · simp [zero, fromLst]
  · intro _ d hd
    simp only [zero, fromLst, List.mem_append, List.mem_replicate] at hd
    rcases hd with hd | hd
    · simpa using List.mem_of_mem_take hd
    · exact hd.2
  · simp [zero, fromLst]

theorem zero_val (c : Cfg) : (zero c).val c = 0 := by
  refine (zero_WF c).toWF.isZero_iff.mp ?_
  simp [isZero, d0, zero, fromLst]
  cases h : c.N with
  | zero => have := c.three_le_N; omega
  | succ n => simp

theorem all_zero_iff {l : List Nat} : l.all (· == 0) = true ↔ ∀ d ∈ l, d = 0 := by simp [List.all_eq_true]

/-- `w` is well-formed except possibly for its leading limbs. -/
structure Pre (c : Cfg) (w : DW) : Prop where
  len : w.data.length = c.N
  valid : ValidLimbs c.B w.data
  dvd : (c.ed : ℤ) ∣ w.exp
  prec2 : 2 ≤ w.prec
  precN : w.prec ≤ c.N

theorem WF.pre {c : Cfg} {x : DW} (h : WF c x) : Pre c x := ⟨h.len, h.valid, h.dvd, h.prec2, h.precN⟩

theorem justify_spec {c : Cfg} {w : DW} {p : Nat} (hw : Pre c w) (hp : p ≤ c.N) (hD : w.mantp c p ≠ 0) :
    WF c (justify c p w) ∧ (justify c p w).neg = w.neg ∧ (justify c p w).prec = w.prec ∧
    (justify c p w).val c = w.val c ∧ (justify c p w).exp ≤ w.exp ∧ (justify c p w).isZero = false := by
  have htl : (w.data.take p).length = p := by simp [hw.len, hp]
  have hnz : ¬ ∀ d ∈ w.data.take p, d = 0 := fun h => hD (limbsVal_eq_zero h)
  have hsj : leadZeros (w.data.take p) < p := by
    have h1 := leadZeros_le (w.data.take p)
    have h2 := mt leadZeros_eq_length.mp hnz
    omega
  have hhead : (w.data.drop (leadZeros (w.data.take p))).headD 0 ≠ 0 := by
    have h1 := leadZeros_drop_head (l := w.data.take p) (by omega)
    rw [← List.take_append_drop p w.data, List.take_append_drop]
    generalize leadZeros (w.data.take p) = s at *
    rw [List.drop_take] at h1
    cases hd : w.data.drop s with
    | nil => rw [hd] at h1; simp at h1
    | cons y ys =>
      rw [hd] at h1
      obtain ⟨q, hq⟩ : ∃ q, p - s = q + 1 := ⟨p - s - 1, by omega⟩
      rw [hq] at h1; simpa using h1
  have htz : w.data.take (leadZeros (w.data.take p)) = List.replicate (leadZeros (w.data.take p)) 0 := by
    have h1 := leadZeros_take (w.data.take p)
    rw [List.take_take, Nat.min_eq_left (by omega)] at h1
    exact h1
  unfold justify
  simp only
  generalize leadZeros (w.data.take p) = s at *
  -- the record before the all-zero check
  have key : ∀ w1 : DW, w1.data = w.data.drop s ++ List.replicate s 0 → w1.exp = w.exp - s * c.ed → w1.neg = w.neg →
      w1.prec = w.prec →
      (WF c (if w1.data.all (· == 0) then zero c else w1) ∧ (if w1.data.all (· == 0) then zero c else w1).neg = w.neg ∧
       (if w1.data.all (· == 0) then zero c else w1).prec = w.prec ∧
       (if w1.data.all (· == 0) then zero c else w1).val c = w.val c ∧
       (if w1.data.all (· == 0) then zero c else w1).exp ≤ w.exp ∧
       (if w1.data.all (· == 0) then zero c else w1).isZero = false) := by
    intro w1 hd he hn hpr
    have hne : (w.data.drop s) ≠ [] := by
      intro h; rw [h] at hhead; simp at hhead
    have hd0 : w1.d0 ≠ 0 := by
      unfold d0; rw [hd]
      cases h : w.data.drop s with
      | nil => exact absurd h hne
      | cons y ys => rw [h] at hhead; simpa using hhead
    have hall : w1.data.all (· == 0) = false := by
      rw [Bool.eq_false_iff]
      intro h
      have := all_zero_iff.mp h
      have h0 : w1.d0 = 0 := by
        unfold d0
        cases hh : w1.data with
        | nil => rfl
        | cons y ys => exact this y (by rw [hh]; simp)
      exact hd0 h0
    rw [hall]
    simp only [Bool.false_eq_true, if_false]
    have hlen : w1.data.length = c.N := by rw [hd]; simp [hw.len]; omega
    refine ⟨⟨hlen, ?_, ?_, hpr ▸ hw.prec2, hpr ▸ hw.precN, fun h => absurd h hd0⟩, hn, hpr, ?_, ?_, ?_⟩
    · rw [hd, validLimbs_append]; exact ⟨hw.valid.drop _, validLimbs_replicate c.B_pos⟩
    · rw [he]; exact dvd_sub hw.dvd (Dvd.intro_left _ rfl)
    · rw [val_eq, val_eq]
      have h1 : w1.mant c = w.mant c * c.B ^ s := by
        unfold mant
        rw [hd, limbsVal_append, limbsVal_replicate_zero, add_zero, List.length_replicate,
          limbsVal_take_drop (l := w.data) s, htz, limbsVal_replicate_zero]
        simp
      have h2 : w.lexp c = w1.lexp c + (c.ed : ℤ) * s := by unfold lexp; rw [he]; ring
      have h3 := c.p10_mul_B (w1.lexp c) s
      rw [← h2] at h3
      have h4 : w1.sgn = w.sgn := by unfold sgn; rw [hn]
      rw [h1, h4, ← h3]
      push_cast; ring
    · rw [he]
      have : (0:ℤ) ≤ (s : ℤ) * c.ed := by positivity
      omega
    · simpa [isZero] using hd0
  by_cases hs0 : s = 0
  · rw [if_pos hs0]
    exact key w (by simp [hs0]) (by simp [hs0]) rfl rfl
  · rw [if_neg hs0, if_neg (show ¬ s = (w.data.take p).length by omega)]
    exact key _ rfl rfl rfl rfl

theorem justify_zero {c : Cfg} {w : DW} {p : Nat} (hz : ∀ d ∈ w.data, d = 0) : justify c p w = zero c := by
  unfold justify
  simp only
  have hlz : leadZeros (w.data.take p) = (w.data.take p).length :=
    leadZeros_eq_length.mpr fun d hd => hz d (List.mem_of_mem_take hd)
  rw [hlz]
  by_cases h0 : (w.data.take p).length = 0
  · rw [if_pos h0, if_pos (all_zero_iff.mpr hz)]
  · rw [if_neg h0, if_pos rfl]
    simp only
    rw [if_pos (all_zero_iff.mpr hz)]

/-! ### Limb-level sums and differences of aligned operands -/

theorem take_length' {c : Cfg} {x : DW} (h : x.data.length = c.N) {p : Nat} (hp : p ≤ c.N) :
    (x.data.take p).length = p := by simp [h, hp]

theorem addN_aligned {c : Cfg} {u v : DW} (hu : Pre c u) (hv : Pre c v) {p k : Nat} (hp : p ≤ c.N) (hk : k ≤ p) :
    let s := addN c.L (u.data.take p) ((shr c.N k v.data).take p)
    s.1.length = p ∧ ValidLimbs c.B s.1 ∧ s.2 ≤ 1 ∧
    limbsVal c.B s.1 + s.2 * c.B ^ p = u.mantp c p + v.mantp c p / c.B ^ k := by
  have h1 := take_length' hu.len hp
  have h2 : ((shr c.N k v.data).take p).length = p := by
    rw [List.length_take, shr_length hv.len (by omega)]; omega
  obtain ⟨a1, a2, a3, a4⟩ := addC_spec c.L (Nat.zero_le 1) (u.data.take p) ((shr c.N k v.data).take p) (by rw [h1, h2])
    (hu.valid.take p) ((shr_valid c.B_pos hv.valid).take p)
  refine ⟨by rw [addN, a1, h1], a2, a3, ?_⟩
  have a5 := limbsVal_take_shr c.B_pos hv.len hv.valid hk hp
  rw [h1] at a4
  unfold mantp
  rw [← a5]
  exact a4

theorem addN_comm_len {L : Limb} : ∀ (a b : List Nat) (cin : Nat), addC L cin a b = addC L cin b a
  | [], [], _ => rfl
  | [], _ :: _, _ => rfl
  | _ :: _, [], _ => rfl
  | x :: xs, y :: ys, cin => by
    simp only [addC, addN_comm_len xs ys cin, addStep, Nat.add_comm x y]

theorem subN_aligned {c : Cfg} {u v : DW} (hu : Pre c u) (hv : Pre c v) {p k : Nat} (hp : p ≤ c.N) (hk : k ≤ p)
    (hle : v.mantp c p / c.B ^ k ≤ u.mantp c p) :
    let s := subN c.L (u.data.take p) ((shr c.N k v.data).take p)
    s.1.length = p ∧ ValidLimbs c.B s.1 ∧
    limbsVal c.B s.1 = u.mantp c p - v.mantp c p / c.B ^ k := by
  have h1 := take_length' hu.len hp
  have h2 : ((shr c.N k v.data).take p).length = p := by
    rw [List.length_take, shr_length hv.len (by omega)]; omega
  obtain ⟨a1, a2, a3, a4⟩ := subC_spec c.L (Nat.zero_le 1) (u.data.take p) ((shr c.N k v.data).take p) (by rw [h1, h2])
    (hu.valid.take p) ((shr_valid c.B_pos hv.valid).take p)
  have a5 := limbsVal_take_shr c.B_pos hv.len hv.valid hk hp
  rw [h1] at a4
  have hlt := limbsVal_lt a2
  rw [a1, h1] at hlt
  change limbsVal c.B (subN c.L (u.data.take p) ((shr c.N k v.data).take p)).1 +
    limbsVal c.B ((shr c.N k v.data).take p) + 0 = limbsVal c.B (u.data.take p) +
    (subN c.L (u.data.take p) ((shr c.N k v.data).take p)).2 * c.B ^ p at a4
  change limbsVal c.B (subN c.L (u.data.take p) ((shr c.N k v.data).take p)).1 < c.B ^ p at hlt
  change (subN c.L (u.data.take p) ((shr c.N k v.data).take p)).2 ≤ 1 at a3
  refine ⟨by rw [subN, a1, h1], a2, ?_⟩
  rw [a5] at a4
  unfold mantp at hle ⊢
  rcases Nat.le_one_iff_eq_zero_or_eq_one.mp a3 with h | h <;> rw [h] at a4
  · omega
  · omega

theorem shr_zero {N : Nat} {d : List Nat} (hd : d.length = N) : shr N 0 d = d := by
  simp [shr, ← hd]

end WD
