import Verif.Model.FftT
import Mathlib.Tactic.IntervalCases
import Mathlib.Tactic.Ring
/-
  The FFT routines without memory: every routine of `Verif/Model/FftT.lean` as a function of sequences of pairs, for any arithmetic.
-/
namespace WD
namespace FOps
variable {K : Type} (O : FOps K)

/-- The k-th complex number of the array at offset o. -/
def cx (d : ℕ → K) (o k : ℕ) : K × K := (d (o + 2 * k), d (o + (2 * k + 1)))

def cadd (a b : K × K) : K × K := (O.add a.1 b.1, O.add a.2 b.2)
def csub (a b : K × K) : K × K := (O.sub a.1 b.1, O.sub a.2 b.2)
def cmul (w z : K × K) : K × K := (O.sub (O.mul w.1 z.1) (O.mul w.2 z.2), O.add (O.mul w.1 z.2) (O.mul w.2 z.1))

/-- The k-th power of the root of unity, by the recurrence. -/
def tw (fwd : Bool) (n : ℕ) : ℕ → K × K
  | 0 => (O.one, O.zero)
  | k + 1 => O.twStep fwd n (tw fwd n k)

/-- Butterflies of two blocks of H numbers. -/
def bfly (H : ℕ) (w : ℕ → K × K) (z : ℕ → K × K) (k : ℕ) : K × K :=
  if k < H then O.cadd (z k) (O.cmul (w k) (z (H + k))) else O.csub (z (k - H)) (O.cmul (w (k - H)) (z k))

theorem dlLoop_inv (fwd : Bool) (H o : ℕ) (d : ℕ → K) (j : ℕ) (hj : j ≤ H) :
    let s := (List.range j).foldl (fun s k => O.dlStep fwd (2 * H) o (2 * k) s) (d, O.one, O.zero)
    s.2 = O.tw fwd (2 * H) j ∧
    (∀ k, k < j → cx s.1 o k = O.cadd (cx d o k) (O.cmul (O.tw fwd (2 * H) k) (cx d o (H + k))) ∧
      cx s.1 o (H + k) = O.csub (cx d o k) (O.cmul (O.tw fwd (2 * H) k) (cx d o (H + k)))) ∧
    (∀ i, (i < o ∨ (o + 2 * j ≤ i ∧ i < o + 2 * H) ∨ o + 2 * H + 2 * j ≤ i) → s.1 i = d i) := by
  induction j with
  | zero => exact ⟨rfl, fun k hk => by omega, fun i _ => rfl⟩
  | succ j ih =>
    obtain ⟨h1, h2, h3⟩ := ih (by omega)
    rw [List.range_succ, List.foldl_append, List.foldl_cons, List.foldl_nil]
    generalize (List.range j).foldl (fun s k => O.dlStep fwd (2 * H) o (2 * k) s) (d, O.one, O.zero) = s at *
    obtain ⟨e, w⟩ := s
    simp only at h1 h2 h3
    subst h1
    have q1 := h3 (o + 2 * j) (by omega)
    have q2 := h3 (o + (2 * j + 1)) (by omega)
    have q3 := h3 (o + (2 * j + 2 * H)) (by omega)
    have q4 := h3 (o + (2 * j + 2 * H + 1)) (by omega)
    have i1 : o + 2 * (H + j) = o + (2 * j + 2 * H) := by ring
    have i2 : o + (2 * (H + j) + 1) = o + (2 * j + 2 * H + 1) := by ring
    have hw : ∀ i, (O.dlStep fwd (2 * H) o (2 * j) (e, O.tw fwd (2 * H) j)).1 i =
        if i = o + (2 * j + 1) then (O.cadd (cx d o j) (O.cmul (O.tw fwd (2 * H) j) (cx d o (H + j)))).2
        else if i = o + 2 * j then (O.cadd (cx d o j) (O.cmul (O.tw fwd (2 * H) j) (cx d o (H + j)))).1
        else if i = o + (2 * j + 2 * H + 1) then (O.csub (cx d o j) (O.cmul (O.tw fwd (2 * H) j) (cx d o (H + j)))).2
        else if i = o + (2 * j + 2 * H) then (O.csub (cx d o j) (O.cmul (O.tw fwd (2 * H) j) (cx d o (H + j)))).1
        else e i := by
      intro i
      have n1 : ¬ (o + 2 * j = o + (2 * j + 2 * H)) := by omega
      have n2 : ¬ (o + 2 * j = o + (2 * j + 2 * H + 1)) := by omega
      have n3 : ¬ (o + (2 * j + 1) = o + (2 * j + 2 * H)) := by omega
      have n4 : ¬ (o + (2 * j + 1) = o + (2 * j + 2 * H + 1)) := by omega
      have n5 : ¬ (o + (2 * j + 1) = o + 2 * j) := by omega
      simp only [dlStep, Function.update_apply, cx, cadd, csub, cmul, i1, i2, q1, q2, q3, q4, if_neg n1, if_neg n2, if_neg n3, if_neg n4, if_neg n5]
    refine ⟨rfl, fun k hk => ?_, fun i hi => ?_⟩
    · rcases Nat.lt_succ_iff_lt_or_eq.mp hk with hk | rfl
      · obtain ⟨a, b⟩ := h2 k hk
        rw [← a, ← b]
        constructor
        · unfold cx
          rw [hw, hw]
          rw [if_neg (by omega), if_neg (by omega), if_neg (by omega), if_neg (by omega), if_neg (by omega), if_neg (by omega), if_neg (by omega), if_neg (by omega)]
        · unfold cx
          rw [hw, hw]
          rw [if_neg (by omega), if_neg (by omega), if_neg (by omega), if_neg (by omega), if_neg (by omega), if_neg (by omega), if_neg (by omega), if_neg (by omega)]
      · constructor
        · refine Prod.ext ?_ ?_
          · refine (hw _).trans ?_
            rw [if_neg (by omega), if_pos rfl]
          · refine (hw _).trans ?_
            rw [if_pos rfl]
        · refine Prod.ext ?_ ?_
          · refine (hw _).trans ?_
            rw [if_neg (by omega), if_neg (by omega), if_neg (by omega), if_pos i1]
          · refine (hw _).trans ?_
            rw [if_neg (by omega), if_neg (by omega), if_pos i2]
    · rw [hw, if_neg (by omega), if_neg (by omega), if_neg (by omega), if_neg (by omega)]
      exact h3 i (by omega)

theorem dlLoop_spec (fwd : Bool) (H o : ℕ) (d : ℕ → K) :
    (∀ k, k < 2 * H → cx (O.dlLoop fwd (2 * H) o d) o k = O.bfly H (O.tw fwd (2 * H)) (cx d o) k) ∧
    (∀ i, (i < o ∨ o + 4 * H ≤ i) → O.dlLoop fwd (2 * H) o d i = d i) := by
  obtain ⟨-, h2, h3⟩ := O.dlLoop_inv fwd H o d H le_rfl
  unfold dlLoop
  rw [show 2 * H / 2 = H by omega]
  refine ⟨fun k hk => ?_, fun i hi => h3 i (by omega)⟩
  unfold bfly
  split
  · next h => exact (h2 k h).1
  · next h =>
    have := (h2 (k - H) (by omega)).2
    rwa [show H + (k - H) = k by omega] at this

/-- The transform of four numbers. -/
def four (fwd : Bool) (z : ℕ → K × K) (k : ℕ) : K × K :=
  let w := (O.add (O.wpReal fwd 4) O.one, O.wpImag fwd 4)
  if k = 0 then O.cadd (O.cadd (z 0) (z 1)) (O.cadd (z 2) (z 3))
  else if k = 1 then O.cadd (O.csub (z 0) (z 1)) (O.cmul w (O.csub (z 2) (z 3)))
  else if k = 2 then O.csub (O.cadd (z 0) (z 1)) (O.cadd (z 2) (z 3))
  else O.csub (O.csub (z 0) (z 1)) (O.cmul w (O.csub (z 2) (z 3)))

theorem base4_spec (fwd : Bool) (o : ℕ) (d : ℕ → K) :
    (∀ k, k < 4 → cx (O.base4 fwd o d) o k = O.four fwd (cx d o) k) ∧ (∀ i, (i < o ∨ o + 8 ≤ i) → O.base4 fwd o d i = d i) := by
  refine ⟨fun k hk => ?_, fun i hi => ?_⟩
  · interval_cases k
    all_goals
      simp only [base4, four, cx, cadd, csub, cmul, Function.update_apply, Nat.reduceMul, Nat.reduceAdd, Nat.add_left_cancel_iff, Nat.reduceEqDiff,
        if_true, if_false, reduceIte, OfNat.one_ne_ofNat, OfNat.zero_ne_ofNat, OfNat.ofNat_ne_one, OfNat.ofNat_ne_zero, one_ne_zero, zero_ne_one]
  · have h : ∀ r, r < 8 → i ≠ o + r := fun r hr => by omega
    simp only [base4, Function.update_apply, if_neg (h 0 (by norm_num)), if_neg (h 1 (by norm_num)), if_neg (h 2 (by norm_num)), if_neg (h 3 (by norm_num)), if_neg (h 4 (by norm_num)),
      if_neg (h 5 (by norm_num)), if_neg (h 6 (by norm_num)), if_neg (h 7 (by norm_num))]

/-- The transform of 8·2^m numbers in bit-reversed order. -/
def dlf (fwd : Bool) : (m : ℕ) → (z : ℕ → K × K) → ℕ → K × K
  | 0, z => O.bfly 4 (O.tw fwd 8) (fun k => if k < 4 then O.four fwd z k else O.four fwd (fun j => z (4 + j)) (k - 4))
  | m + 1, z => O.bfly (8 * 2 ^ m) (O.tw fwd (8 * 2 ^ (m + 1)))
      (fun k => if k < 8 * 2 ^ m then dlf fwd m z k else dlf fwd m (fun j => z (8 * 2 ^ m + j)) (k - 8 * 2 ^ m))

theorem bfly_congr {H : ℕ} {w z z' : ℕ → K × K} (h : ∀ k, k < 2 * H → z k = z' k) {k : ℕ} (hk : k < 2 * H) : O.bfly H w z k = O.bfly H w z' k := by
  unfold bfly
  split
  · rw [h k (by omega), h (H + k) (by omega)]
  · rw [h k (by omega), h (k - H) (by omega)]

theorem four_congr {fwd : Bool} {z z' : ℕ → K × K} (h : ∀ k, k < 4 → z k = z' k) (k : ℕ) : O.four fwd z k = O.four fwd z' k := by
  unfold four
  rw [h 0 (by norm_num), h 1 (by norm_num), h 2 (by norm_num), h 3 (by norm_num)]

theorem dlf_congr (fwd : Bool) : ∀ (m : ℕ) {z z' : ℕ → K × K}, (∀ k, k < 8 * 2 ^ m → z k = z' k) → ∀ {k}, k < 8 * 2 ^ m → O.dlf fwd m z k = O.dlf fwd m z' k := by
  intro m
  induction m with
  | zero =>
    intro z z' h k hk
    unfold dlf
    refine O.bfly_congr (fun k hk => ?_) (by omega)
    beta_reduce
    split
    · exact O.four_congr (fun k hk => h k (by omega)) _
    · exact O.four_congr (fun k hk => h (4 + k) (by omega)) _
  | succ m ih =>
    intro z z' h k hk
    rw [pow_succ] at hk h
    unfold dlf
    refine O.bfly_congr (fun k hk => ?_) (by omega)
    beta_reduce
    split
    · next hl => exact ih (fun k hk => h k (by omega)) hl
    · exact ih (fun k hk => h _ (by omega)) (by omega)

theorem cx_off (d : ℕ → K) (o q k : ℕ) : cx d (o + 2 * q) k = cx d o (q + k) := by
  unfold cx
  rw [show o + 2 * q + 2 * k = o + 2 * (q + k) by ring, show o + 2 * q + (2 * k + 1) = o + (2 * (q + k) + 1) by ring]

theorem dlApply_spec (fwd : Bool) : ∀ (m o : ℕ) (d : ℕ → K),
    (∀ k, k < 8 * 2 ^ m → cx (O.dlApply fwd m o d) o k = O.dlf fwd m (cx d o) k) ∧
    (∀ i, (i < o ∨ o + 16 * 2 ^ m ≤ i) → O.dlApply fwd m o d i = d i) := by
  -- two transforms of H numbers followed by the butterflies
  have key : ∀ (H o : ℕ) (d d1 d2 : ℕ → K) (T : (ℕ → K × K) → ℕ → K × K),
      (∀ z z' : ℕ → K × K, (∀ k, k < H → z k = z' k) → ∀ k, k < H → T z k = T z' k) →
      (∀ k, k < H → cx d1 o k = T (cx d o) k) → (∀ i, (i < o ∨ o + 2 * H ≤ i) → d1 i = d i) →
      (∀ k, k < H → cx d2 (o + 2 * H) k = T (cx d1 (o + 2 * H)) k) → (∀ i, (i < o + 2 * H ∨ o + 2 * H + 2 * H ≤ i) → d2 i = d1 i) →
      (∀ k, k < 2 * H → cx (O.dlLoop fwd (2 * H) o d2) o k =
        O.bfly H (O.tw fwd (2 * H)) (fun k => if k < H then T (cx d o) k else T (fun j => cx d o (H + j)) (k - H)) k) ∧
      (∀ i, (i < o ∨ o + 4 * H ≤ i) → O.dlLoop fwd (2 * H) o d2 i = d i) := by
    intro H o d d1 d2 T hT a1 a2 b1 b2
    obtain ⟨l1, l2⟩ := O.dlLoop_spec fwd H o d2
    refine ⟨fun k hk => ?_, fun i hi => ?_⟩
    · rw [l1 k hk]
      refine O.bfly_congr (fun k hk => ?_) hk
      split
      · next h =>
        rw [← a1 k h]
        unfold cx
        rw [b2 _ (by omega), b2 _ (by omega)]
      · next h =>
        have e : cx d2 o k = cx d2 (o + 2 * H) (k - H) := by rw [cx_off]; congr 1; omega
        rw [e, b1 _ (by omega)]
        refine hT _ _ (fun j hj => ?_) _ (by omega)
        rw [cx_off]
        unfold cx
        rw [a2 _ (by omega), a2 _ (by omega)]
    · rw [l2 i hi, b2 i (by omega), a2 i (by omega)]
  intro m
  induction m with
  | zero =>
    intro o d
    obtain ⟨a1, a2⟩ := O.base4_spec fwd o d
    obtain ⟨b1, b2⟩ := O.base4_spec fwd (o + 8) (O.base4 fwd o d)
    exact key 4 o d _ _ (O.four fwd) (fun z z' h k _ => O.four_congr h k) a1 a2 b1 b2
  | succ m ih =>
    intro o d
    have e1 : 8 * 2 ^ (m + 1) = 2 * (8 * 2 ^ m) := by ring
    have e2 : 16 * 2 ^ (m + 1) = 4 * (8 * 2 ^ m) := by ring
    have e3 : 16 * 2 ^ m = 2 * (8 * 2 ^ m) := by ring
    obtain ⟨a1, a2⟩ := ih o d
    obtain ⟨b1, b2⟩ := ih (o + 2 * (8 * 2 ^ m)) (O.dlApply fwd m o d)
    rw [e3] at a2 b2
    have := key (8 * 2 ^ m) o d _ _ (O.dlf fwd m) (fun z z' h k hk => O.dlf_congr fwd m h hk) a1 a2 b1 b2
    rw [dlApply, dlf, e1, e2]
    exact this

end FOps
end WD
