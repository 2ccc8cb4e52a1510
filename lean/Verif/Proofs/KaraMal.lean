import Verif.Proofs.Radix
import Verif.Proofs.Mul
/-
  The Karatsuba product with an operand `[B, 0, …, 0]` (B the limb radix): malformed, but the product is still right.
-/
namespace WD
open DW

/-- Two well-formed operands, or one well-formed operand and one `[B, 0, …, 0]`. -/
def PairOk (B : Nat) (x y : List Nat) : Prop :=
  (ValidLimbs B x ∧ ValidLimbs B y) ∨ (x = radixLimbs B x.length ∧ ValidLimbs B y) ∨ (ValidLimbs B x ∧ y = radixLimbs B y.length)

theorem radixLimbs_split {B : Nat} {x y : List Nat} (hx : 0 < x.length) (h : x ++ y = radixLimbs B (x ++ y).length) :
    x = radixLimbs B x.length ∧ y = List.replicate y.length 0 := by
  have h1 : radixLimbs B (x ++ y).length = radixLimbs B x.length ++ List.replicate y.length 0 := by
    rw [List.length_append, radixLimbs, radixLimbs, List.cons_append, List.replicate_append_replicate]
    congr 2; omega
  rw [h1] at h
  exact List.append_inj h (radixLimbs_length hx).symm

theorem PairOk.split {B : Nat} {x1 x0 y1 y0 : List Nat} (h : PairOk B (x1 ++ x0) (y1 ++ y0)) (hx : x0.length = x1.length)
    (hy : y1.length = x1.length) (hy0 : y0.length = x1.length) (h0 : 0 < x1.length) (hB : 0 < B := by exact Limb.mask_pos _) :
    PairOk B x1 y1 ∧ ValidLimbs B x0 ∧ ValidLimbs B y0 ∧
    (x1 = radixLimbs B x1.length → x0 = List.replicate x1.length 0) ∧ (y1 = radixLimbs B y1.length → y0 = List.replicate y1.length 0) := by
  have notv : ∀ l, 0 < l.length → ValidLimbs B l → l = radixLimbs B l.length → False := by
    intro l h0 h1 h2
    have := h1 B (by rw [h2]; simp [radixLimbs])
    omega
  have hz : ∀ n, ValidLimbs B (List.replicate n 0) := fun n => validLimbs_replicate hB
  rcases h with ⟨x, y⟩ | ⟨x, y⟩ | ⟨x, y⟩
  · rw [validLimbs_append] at x y
    exact ⟨Or.inl ⟨x.1, y.1⟩, x.2, y.2, fun h => (notv _ h0 x.1 h).elim, fun h => (notv _ (by omega) y.1 h).elim⟩
  · rw [validLimbs_append] at y
    obtain ⟨e1, e2⟩ := radixLimbs_split h0 x
    exact ⟨Or.inr (Or.inl ⟨e1, y.1⟩), by rw [e2]; exact hz _, y.2, fun _ => by rw [← hx]; exact e2, fun h => (notv _ (by omega) y.1 h).elim⟩
  · rw [validLimbs_append] at x
    obtain ⟨e1, e2⟩ := radixLimbs_split (by omega) y
    exact ⟨Or.inr (Or.inr ⟨x.1, e1⟩), x.2, by rw [e2]; exact hz _, fun h => (notv _ h0 x.1 h).elim, fun _ => by rw [hy, ← hy0]; exact e2⟩

theorem subC_zero_mal (L : Limb) : ∀ l : List Nat, (∀ x ∈ l, x ≤ L.mask) → subC L 0 l (List.replicate l.length 0) = (l, 0)
  | [], _ => rfl
  | x :: xs, h => by
    have hx := h x (by simp)
    have ih := subC_zero_mal L xs (fun y hy => h y (by simp [hy]))
    have e : L.mask < L.W / 2 ∧ 0 < L.W := by cases L <;> decide
    have e2 : (x + ((L.W - 1 - (0 + 0) % L.W) + 1) % L.W) % L.W = x := by
      rw [Nat.add_zero, Nat.zero_mod, Nat.sub_zero, show L.W - 1 + 1 = L.W by omega, Nat.mod_self, Nat.add_zero, Nat.mod_eq_of_lt (by omega)]
    have : subStep L x 0 0 = (x, 0) := by
      unfold subStep
      dsimp only
      generalize (x + ((L.W - 1 - (0 + 0) % L.W) + 1) % L.W) % L.W = z at e2
      subst e2
      exact if_neg (by omega)
    simp only [List.length_cons, List.replicate_succ, subC, ih, this]

theorem radix_cmp (L : Limb) {n : Nat} (h : 0 < n) :
    compareRanges (radixLimbs L.mask n) (List.replicate n 0) = 1 ∧ compareRanges (List.replicate n 0) (radixLimbs L.mask n) = -1 := by
  obtain ⟨k, rfl⟩ : ∃ k, n = k + 1 := ⟨n - 1, by omega⟩
  have := L.mask_pos
  unfold radixLimbs
  rw [List.replicate_succ]
  constructor
  · rw [compareRanges, if_pos (by omega), if_pos (by omega)]
  · rw [compareRanges, if_pos (by omega), if_neg (by omega)]

theorem radixLimbs_le (B n : Nat) : ∀ x ∈ radixLimbs B n, x ≤ B := by
  intro x hx
  unfold radixLimbs at hx
  rcases List.mem_cons.mp hx with rfl | h
  · exact le_refl _
  · rw [(List.mem_replicate.mp h).2]; exact Nat.zero_le _

/-- The absolute difference, when one operand is `[B, 0, …, 0]` and the other is zero. -/
theorem absDiff_mal (L : Limb) (m : Mem) (d u v n : Nat) (hn : 0 < n)
    (hdu : Disjoint2 d n u n) (hdv : Disjoint2 d n v n)
    (huv : (ValidLimbs L.mask (rd m u n) ∧ ValidLimbs L.mask (rd m v n)) ∨
      (rd m u n = radixLimbs L.mask n ∧ rd m v n = List.replicate n 0) ∨
      (rd m u n = List.replicate n 0 ∧ rd m v n = radixLimbs L.mask n)) (hd : ValidLimbs L.mask (rd m d n)) :
    let c := compareRanges (rd m u n) (rd m v n)
    let m' := if c = 1 then (subMem L d u v n m 0).1 else if c = -1 then (subMem L d v u n m 0).1 else m
    (ValidLimbs L.mask (rd m u n) → ValidLimbs L.mask (rd m v n) → ValidLimbs L.mask (rd m' d n)) ∧
    (rd m u n = radixLimbs L.mask n → rd m' d n = radixLimbs L.mask n) ∧
    (rd m v n = radixLimbs L.mask n → rd m' d n = radixLimbs L.mask n) ∧
    (∀ q, (q < d ∨ d + n ≤ q) → m' q = m q) ∧
    ((c = 1 ∧ limbsVal L.mask (rd m' d n) + limbsVal L.mask (rd m v n) = limbsVal L.mask (rd m u n)) ∨
     (c = -1 ∧ limbsVal L.mask (rd m' d n) + limbsVal L.mask (rd m u n) = limbsVal L.mask (rd m v n)) ∨
     (c = 0 ∧ limbsVal L.mask (rd m u n) = limbsVal L.mask (rd m v n))) := by
  intro c m'
  have notv : ∀ l, ValidLimbs L.mask l → l = radixLimbs L.mask n → False := by
    intro l h1 h2
    have := h1 L.mask (by rw [h2]; simp [radixLimbs])
    omega
  rcases huv with ⟨h1, h2⟩ | ⟨h1, h2⟩ | ⟨h1, h2⟩
  · obtain ⟨a, b, e⟩ := absDiff_spec L m d u v n hdu hdv h1 h2 hd
    exact ⟨fun _ _ => a, fun h => (notv _ h1 h).elim, fun h => (notv _ h2 h).elim, b, e⟩
  · obtain ⟨s1, -, s3⟩ := subMem_spec L n m 0 (Or.inr hdu : SameOrDisj d u n) (Or.inr hdv)
    have hc : c = 1 := by show compareRanges _ _ = 1; rw [h1, h2]; exact (radix_cmp L hn).1
    have hm : m' = (subMem L d u v n m 0).1 := if_pos hc
    have hr : rd m' d n = radixLimbs L.mask n := by
      rw [hm, s1, h1, h2]
      have := subC_zero_mal L (radixLimbs L.mask n) (radixLimbs_le _ _)
      rw [radixLimbs_length hn] at this
      rw [this]
    refine ⟨fun h _ => (notv _ h h1).elim, fun _ => hr, fun _ => hr, by rw [hm]; exact s3, Or.inl ⟨hc, ?_⟩⟩
    rw [hr, h1, h2, limbsVal_replicate_zero, Nat.add_zero]
  · obtain ⟨s1, -, s3⟩ := subMem_spec L n m 0 (Or.inr hdv : SameOrDisj d v n) (Or.inr hdu)
    have hc : c = -1 := by show compareRanges _ _ = -1; rw [h1, h2]; exact (radix_cmp L hn).2
    have hm : m' = (subMem L d v u n m 0).1 := by
      show (if c = 1 then _ else if c = -1 then _ else _) = _
      rw [hc, if_neg (by decide), if_pos rfl]
    have hr : rd m' d n = radixLimbs L.mask n := by
      rw [hm, s1, h1, h2]
      have := subC_zero_mal L (radixLimbs L.mask n) (radixLimbs_le _ _)
      rw [radixLimbs_length hn] at this
      rw [this]
    refine ⟨fun _ h => (notv _ h h2).elim, fun _ => hr, fun _ => hr, by rw [hm]; exact s3, Or.inr (Or.inl ⟨hc, ?_⟩)⟩
    rw [hr, h1, h2, limbsVal_replicate_zero, Nat.add_zero]

/-- The contract of the Karatsuba routine at length `n`, one operand possibly `[B, 0, …, 0]`. -/
def KaraOkMal (L : Limb) (n : Nat) : Prop :=
  ∀ (m : Mem) (r a b t : Nat),
    Disjoint2 r (2 * n) a n → Disjoint2 r (2 * n) b n → Disjoint2 r (2 * n) t (4 * n) →
    Disjoint2 t (4 * n) a n → Disjoint2 t (4 * n) b n →
    PairOk L.mask (rd m a n) (rd m b n) →
    limbsVal L.mask (rd (kara L m r a b n t) r (2 * n)) = limbsVal L.mask (rd m a n) * limbsVal L.mask (rd m b n) ∧
    ValidLimbs L.mask (rd (kara L m r a b n t) r (2 * n)) ∧
    ∀ q, (q < r ∨ r + 2 * n ≤ q) → (q < t ∨ t + 4 * n ≤ q) → kara L m r a b n t q = m q

theorem kara_base_mal (L : Limb) {n : Nat} (h0 : 0 < n) (h : n ≤ 32) : KaraOkMal L n := by
  intro m r a b t d1 d2 d3 d4 d5 vab
  have fin : ∀ l : List Nat, l.length = 2 * n → ValidLimbs L.mask l → schoolMul L (rd m a n) (rd m b n) = l →
      limbsVal L.mask l = limbsVal L.mask (rd m a n) * limbsVal L.mask (rd m b n) →
      limbsVal L.mask (rd (kara L m r a b n t) r (2 * n)) = limbsVal L.mask (rd m a n) * limbsVal L.mask (rd m b n) ∧
      ValidLimbs L.mask (rd (kara L m r a b n t) r (2 * n)) ∧
      ∀ q, (q < r ∨ r + 2 * n ≤ q) → (q < t ∨ t + 4 * n ≤ q) → kara L m r a b n t q = m q := by
    intro l hl hv hs hval
    rw [kara, dif_pos h]
    have hrd : rd (schoolMem L m r a b n) r (2 * n) = l := by
      unfold schoolMem; rw [hs, ← hl]; exact rd_store m r l
    rw [hrd]
    refine ⟨hval, hv, ?_⟩
    intro q hq _
    unfold schoolMem; rw [hs]
    exact store_frame _ _ _ _ (by rw [hl]; exact hq)
  rcases vab with ⟨x, y⟩ | ⟨x, y⟩ | ⟨x, y⟩
  · exact kara_base L h0 h m r a b t d1 d2 d3 d4 d5 x y
  · have hs := schoolMul_radix_left L y (by rw [rd_length]; exact h0)
    rw [rd_length] at x hs
    rw [← x] at hs
    refine fin _ (by simp; omega) ?_ hs ?_
    · rw [validLimbs_append]; exact ⟨y, validLimbs_replicate L.mask_pos⟩
    · rw [limbsVal_zeros, x, radixLimbs_val h0, Nat.mul_comm]
  · have hs := schoolMul_radix_right L x (by rw [rd_length]; exact h0)
    rw [rd_length] at y hs
    rw [← y] at hs
    refine fin _ (by simp; omega) ?_ hs ?_
    · rw [validLimbs_append]; exact ⟨x, validLimbs_replicate L.mask_pos⟩
    · rw [limbsVal_zeros, y, radixLimbs_val h0]

set_option maxHeartbeats 1000000 in
/-- The recursion, for operands of which one may be `[B, 0, …, 0]`. -/
theorem kara_step_mal (L : Limb) {nh : Nat} (h0 : 0 < nh) (hbig : ¬ 2 * nh ≤ 32) (ih : KaraOkMal L nh) : KaraOkMal L (2 * nh) := by
  intro m r a b t dra drb drt dta dtb vab
  unfold Disjoint2 at *
  generalize hF : kara L m r a b (2 * nh) t = F
  rw [kara, dif_neg hbig] at hF
  rw [show 2 * nh / 2 = nh by omega] at hF
  extract_lets nh' a0 a1 b0 b1 r0 r1 r2 t0 t1 t2 t4 m1 m2 m3 s1 m4 s2 m5 ca m6 cb m7 m8 s3 s3' at hF
  -- operand halves
  have ea : rd m a (2 * nh) = rd m a nh ++ rd m (a + nh) nh := by rw [two_mul, rd_append]
  have eb : rd m b (2 * nh) = rd m b nh ++ rd m (b + nh) nh := by rw [two_mul, rd_append]
  rw [ea, eb] at vab
  obtain ⟨vab1, va0, vb0, ha10, hb10⟩ := vab.split (by simp) (by simp) (by simp) (by simp; omega)
  set A1 := limbsVal L.mask (rd m a nh) with hA1
  set A0 := limbsVal L.mask (rd m (a + nh) nh) with hA0
  set B1 := limbsVal L.mask (rd m b nh) with hB1
  set B0 := limbsVal L.mask (rd m (b + nh) nh) with hB0
  have eA : limbsVal L.mask (rd m a (2 * nh)) = A1 * L.mask ^ nh + A0 := by
    rw [ea, limbsVal_append, rd_length]
  have eB : limbsVal L.mask (rd m b (2 * nh)) = B1 * L.mask ^ nh + B0 := by
    rw [eb, limbsVal_append, rd_length]
  set H := L.mask ^ nh with hH
  have lA0 : A0 < H := by have := limbsVal_lt va0; rwa [rd_length] at this
  have lB0 : B0 < H := by have := limbsVal_lt vb0; rwa [rd_length] at this
  have hcases : (A1 < H ∧ B1 < H) ∨ (A1 = H ∧ A0 = 0 ∧ B1 < H) ∨ (A1 < H ∧ B1 = H ∧ B0 = 0) := by
    rcases vab1 with ⟨x, y⟩ | ⟨x, y⟩ | ⟨x, y⟩
    · left
      have hx := limbsVal_lt x
      have hy := limbsVal_lt y
      rw [rd_length] at hx hy; exact ⟨hx, hy⟩
    · right; left
      have hy := limbsVal_lt y
      rw [rd_length] at hy
      refine ⟨by rw [hA1, x, rd_length, radixLimbs_val h0], ?_, hy⟩
      rw [hA0, ha10 x, limbsVal_replicate_zero]
    · right; right
      have hx := limbsVal_lt x
      rw [rd_length] at hx
      refine ⟨hx, by rw [hB1, y, rd_length, radixLimbs_val h0], ?_⟩
      rw [hB0, hb10 y, limbsVal_replicate_zero]
  -- Step 1a
  obtain ⟨p1, p2, p3⟩ := ih m r a b t (by unfold Disjoint2; omega) (by unfold Disjoint2; omega) (by unfold Disjoint2; omega)
    (by unfold Disjoint2; omega) (by unfold Disjoint2; omega) vab1
  change limbsVal L.mask (rd m1 r (2 * nh)) = A1 * B1 at p1
  change ValidLimbs L.mask (rd m1 r (2 * nh)) at p2
  change ∀ q, _ → _ → m1 q = m q at p3
  -- Step 1b
  have ea0 : rd m1 (a + nh) nh = rd m (a + nh) nh := rd_congr fun q h1 h2 => p3 q (by omega) (by omega)
  have eb0 : rd m1 (b + nh) nh = rd m (b + nh) nh := rd_congr fun q h1 h2 => p3 q (by omega) (by omega)
  obtain ⟨q1, q2, q3⟩ := ih m1 (r + 2 * nh) (a + nh) (b + nh) t (by unfold Disjoint2; omega) (by unfold Disjoint2; omega)
    (by unfold Disjoint2; omega) (by unfold Disjoint2; omega) (by unfold Disjoint2; omega)
    (by rw [ea0, eb0]; exact Or.inl ⟨va0, vb0⟩)
  rw [ea0, eb0] at q1
  change limbsVal L.mask (rd m2 (r + 2 * nh) (2 * nh)) = A0 * B0 at q1
  change ValidLimbs L.mask (rd m2 (r + 2 * nh) (2 * nh)) at q2
  change ∀ q, _ → _ → m2 q = m1 q at q3
  have er0 : rd m2 r (2 * nh) = rd m1 r (2 * nh) := rd_congr fun q h1 h2 => q3 q (by omega) (by omega)
  have er : rd m2 r (2 * nh * 2) = rd m2 r (2 * nh) ++ rd m2 (r + 2 * nh) (2 * nh) := by
    rw [Nat.mul_two, rd_append]
  -- copy
  have hst : rd m3 t (2 * nh * 2) = rd m2 r (2 * nh * 2) := by
    have := rd_store m2 t (rd m2 r (2 * nh * 2))
    rwa [rd_length] at this
  have hsf : ∀ q, (q < t ∨ t + 2 * nh * 2 ≤ q) → m3 q = m2 q := fun q hq =>
    store_frame _ _ _ _ (by rw [rd_length]; omega)
  have est : rd m3 t (2 * nh * 2) = rd m3 t (2 * nh) ++ rd m3 (t + 2 * nh) (2 * nh) := by
    rw [Nat.mul_two, rd_append]
  rw [er, est] at hst
  have hlen : (rd m3 t (2 * nh)).length = (rd m2 r (2 * nh)).length := by simp
  obtain ⟨ht0, ht2⟩ := List.append_inj hst hlen
  rw [er0] at ht0
  have er3 : rd m3 r (4 * nh) = rd m1 r (2 * nh) ++ rd m2 (r + 2 * nh) (2 * nh) := by
    rw [← er0, ← er, show 2 * nh * 2 = 4 * nh by omega]
    exact rd_congr fun q h1 h2 => hsf q (by omega)
  have v3 : limbsVal L.mask (rd m3 r (4 * nh)) = A1 * B1 * (H * H) + A0 * B0 := by
    rw [er3, limbsVal_append, rd_length, p1, q1, two_mul, pow_add]
  have w3 : ValidLimbs L.mask (rd m3 r (4 * nh)) := by rw [er3, validLimbs_append]; exact ⟨p2, q2⟩
  have split : ∀ (mm : Mem), rd mm r (nh + 2 * nh + nh) = rd mm r (4 * nh) := fun mm => by
    rw [show nh + 2 * nh + nh = 4 * nh by omega]
  have hHH : L.mask ^ (nh + 2 * nh + nh) = H * H * (H * H) := by
    rw [show nh + 2 * nh + nh = nh + nh + (nh + nh) by omega, pow_add, pow_add]
  -- bounds
  have hHpos : 0 < H := by omega
  have hbound : A1 * B1 * (H * H) + A0 * B0 + A1 * B1 * H + A0 * B0 * H < H * H * (H * H) := by
    obtain ⟨K, hK⟩ : ∃ K, H = K + 1 := ⟨H - 1, by omega⟩
    have bP0 : A0 * B0 ≤ K * K := Nat.mul_le_mul (by omega) (by omega)
    rcases hcases with ⟨x, y⟩ | ⟨x, x', y⟩ | ⟨x, y, y'⟩
    · have bP1 : A1 * B1 ≤ K * K := Nat.mul_le_mul (by omega) (by omega)
      rw [hK]
      have e1 : A1 * B1 * ((K + 1) * (K + 1)) + A0 * B0 + A1 * B1 * (K + 1) + A0 * B0 * (K + 1)
          = A1 * B1 * ((K + 1) * (K + 2)) + A0 * B0 * (K + 2) := by ring
      rw [e1]
      have h1 := Nat.mul_le_mul_right ((K + 1) * (K + 2)) bP1
      have h2 := Nat.mul_le_mul_right (K + 2) bP0
      have e2 : K * K * ((K + 1) * (K + 2)) + K * K * (K + 2) + (2 * (K * (K + 2)) + 1)
          = (K + 1) * (K + 1) * ((K + 1) * (K + 1)) := by ring
      omega
    · have bP1 : A1 * B1 ≤ (K + 1) * K := Nat.mul_le_mul (by omega) (by omega)
      rw [x', hK]
      have e1 : A1 * B1 * ((K + 1) * (K + 1)) + 0 * B0 + A1 * B1 * (K + 1) + 0 * B0 * (K + 1)
          = A1 * B1 * ((K + 1) * (K + 2)) := by ring
      rw [e1]
      have h1 := Nat.mul_le_mul_right ((K + 1) * (K + 2)) bP1
      have e2 : (K + 1) * K * ((K + 1) * (K + 2)) + (K + 1) * (K + 1) = (K + 1) * (K + 1) * ((K + 1) * (K + 1)) := by ring
      have : 0 < (K + 1) * (K + 1) := by positivity
      omega
    · have bP1 : A1 * B1 ≤ K * (K + 1) := Nat.mul_le_mul (by omega) (by omega)
      rw [y', hK]
      have e1 : A1 * B1 * ((K + 1) * (K + 1)) + A0 * 0 + A1 * B1 * (K + 1) + A0 * 0 * (K + 1)
          = A1 * B1 * ((K + 1) * (K + 2)) := by ring
      rw [e1]
      have h1 := Nat.mul_le_mul_right ((K + 1) * (K + 2)) bP1
      have e2 : K * (K + 1) * ((K + 1) * (K + 2)) + (K + 1) * (K + 1) = (K + 1) * (K + 1) * ((K + 1) * (K + 1)) := by ring
      have : 0 < (K + 1) * (K + 1) := by positivity
      omega
  -- Step 2a
  have st2a := addMiddle_spec L m3 r nh (2 * nh) nh t (A1 * B1) (by unfold Disjoint2; omega)
    (by rw [split]; exact w3) (by rw [ht0]; exact p2) (by rw [ht0]; exact p1)
    (by rw [split, v3, hHH, ← hH]; omega)
  obtain ⟨u1, u2, u3⟩ := st2a
  change limbsVal L.mask (rd m4 r _) = _ at u1
  change ValidLimbs L.mask (rd m4 r _) at u2
  change ∀ q, _ → m4 q = m3 q at u3
  rw [split, split, v3, ← hH] at u1
  -- Step 2b
  have et2 : rd m4 (t + 2 * nh) (2 * nh) = rd m2 (r + 2 * nh) (2 * nh) := by
    rw [← ht2]; exact rd_congr fun q h1 h2 => u3 q (by omega)
  have st2b := addMiddle_spec L m4 r nh (2 * nh) nh (t + 2 * nh) (A0 * B0) (by unfold Disjoint2; omega)
    u2 (by rw [et2]; exact q2) (by rw [et2]; exact q1)
    (by rw [split, u1, hHH, ← hH]; omega)
  obtain ⟨x1, x2, x3⟩ := st2b
  change limbsVal L.mask (rd m5 r _) = _ at x1
  change ValidLimbs L.mask (rd m5 r _) at x2
  change ∀ q, _ → m5 q = m4 q at x3
  rw [split, split, u1, ← hH] at x1
  have fr5 : ∀ q, (q < r ∨ r + 4 * nh ≤ q) → (q < t ∨ t + 8 * nh ≤ q) → m5 q = m q := fun q h1 h2 => by
    rw [x3 q (by omega), u3 q (by omega), hsf q (by omega), q3 q (by omega) (by omega), p3 q (by omega) (by omega)]
  have frt5 : ∀ q, t ≤ q → q < t + 4 * nh → m5 q = m3 q := fun q h1 h2 => by
    rw [x3 q (by omega), u3 q (by omega)]
  have et05 : rd m5 t (2 * nh) = rd m1 r (2 * nh) := by
    rw [← ht0]; exact rd_congr fun q h1 h2 => frt5 q (by omega) (by omega)
  have vt05 : ValidLimbs L.mask (rd m5 t nh) ∧ ValidLimbs L.mask (rd m5 (t + nh) nh) := by
    rw [← validLimbs_append, ← rd_append, ← two_mul, et05]; exact p2
  -- Step 3
  have ea1_5 : rd m5 a nh = rd m a nh := rd_congr fun q h1 h2 => fr5 q (by omega) (by omega)
  have ea0_5 : rd m5 (a + nh) nh = rd m (a + nh) nh := rd_congr fun q h1 h2 => fr5 q (by omega) (by omega)
  have st3 := absDiff_mal L m5 t a (a + nh) nh h0 (by unfold Disjoint2; omega) (by unfold Disjoint2; omega)
    (by rw [ea1_5, ea0_5]; rcases vab1 with ⟨x, y⟩ | ⟨x, y⟩ | ⟨x, y⟩
        · exact Or.inl ⟨x, va0⟩
        · rw [rd_length] at x; exact Or.inr (Or.inl ⟨x, by have := ha10 (by rw [rd_length]; exact x); rwa [rd_length] at this⟩)
        · exact Or.inl ⟨x, va0⟩) vt05.1
  obtain ⟨y1, y1m, y1n, y2, y3⟩ := st3
  change ValidLimbs L.mask (rd m5 a nh) → _ → ValidLimbs L.mask (rd m6 t nh) at y1
  change rd m5 a nh = _ → rd m6 t nh = _ at y1m
  rw [ea1_5] at y1 y1m
  rw [ea0_5] at y1
  change ∀ q, _ → m6 q = m5 q at y2
  change (ca = 1 ∧ limbsVal L.mask (rd m6 t nh) + _ = _) ∨ (ca = -1 ∧ limbsVal L.mask (rd m6 t nh) + _ = _) ∨ (ca = 0 ∧ _) at y3
  rw [ea1_5, ea0_5, ← hA1, ← hA0] at y3
  -- Step 4
  have eb1_6 : rd m6 b nh = rd m b nh := rd_congr fun q h1 h2 => by
    rw [y2 q (by omega), fr5 q (by omega) (by omega)]
  have eb0_6 : rd m6 (b + nh) nh = rd m (b + nh) nh := rd_congr fun q h1 h2 => by
    rw [y2 q (by omega), fr5 q (by omega) (by omega)]
  have et1_6 : rd m6 (t + nh) nh = rd m5 (t + nh) nh := rd_congr fun q h1 h2 => y2 q (by omega)
  have st4 := absDiff_mal L m6 (t + nh) (b + nh) b nh h0 (by unfold Disjoint2; omega) (by unfold Disjoint2; omega)
    (by rw [eb0_6, eb1_6]; rcases vab1 with ⟨x, y⟩ | ⟨x, y⟩ | ⟨x, y⟩
        · exact Or.inl ⟨vb0, y⟩
        · exact Or.inl ⟨vb0, y⟩
        · rw [rd_length] at y; exact Or.inr (Or.inr ⟨by have := hb10 (by rw [rd_length]; exact y); rwa [rd_length] at this, y⟩))
    (by rw [et1_6]; exact vt05.2)
  obtain ⟨z1, z1m, z1n, z2, z3⟩ := st4
  change ValidLimbs L.mask (rd m6 (b + nh) nh) → ValidLimbs L.mask (rd m6 b nh) → ValidLimbs L.mask (rd m7 (t + nh) nh) at z1
  change rd m6 b nh = _ → rd m7 (t + nh) nh = _ at z1n
  rw [eb0_6, eb1_6] at z1
  rw [eb1_6] at z1n
  change ∀ q, _ → m7 q = m6 q at z2
  change (cb = 1 ∧ limbsVal L.mask (rd m7 (t + nh) nh) + _ = _) ∨ (cb = -1 ∧ limbsVal L.mask (rd m7 (t + nh) nh) + _ = _) ∨ (cb = 0 ∧ _) at z3
  rw [eb1_6, eb0_6, ← hB1, ← hB0] at z3
  have et0_7 : rd m7 t nh = rd m6 t nh := rd_congr fun q h1 h2 => z2 q (by omega)
  -- Step 5
  obtain ⟨k1, k2, k3⟩ := ih m7 (t + 2 * nh) t (t + nh) (t + (2 * nh + 2 * nh)) (by unfold Disjoint2; omega)
    (by unfold Disjoint2; omega) (by unfold Disjoint2; omega) (by unfold Disjoint2; omega) (by unfold Disjoint2; omega)
    (by rw [et0_7]; rcases vab1 with ⟨x, y⟩ | ⟨x, y⟩ | ⟨x, y⟩
        · exact Or.inl ⟨y1 x va0, z1 vb0 y⟩
        · rw [rd_length] at x; exact Or.inr (Or.inl ⟨by rw [rd_length]; exact y1m x, z1 vb0 y⟩)
        · rw [rd_length] at y; exact Or.inr (Or.inr ⟨y1 x va0, by rw [rd_length]; exact z1n y⟩))
  rw [et0_7] at k1
  change limbsVal L.mask (rd m8 (t + 2 * nh) (2 * nh)) = _ at k1
  change ValidLimbs L.mask (rd m8 (t + 2 * nh) (2 * nh)) at k2
  change ∀ q, _ → _ → m8 q = m7 q at k3
  set DA := limbsVal L.mask (rd m6 t nh) with hDA
  set DB := limbsVal L.mask (rd m7 (t + nh) nh) with hDB
  have er8 : rd m8 r (4 * nh) = rd m5 r (4 * nh) := rd_congr fun q h1 h2 => by
    rw [k3 q (by omega) (by omega), z2 q (by omega), y2 q (by omega)]
  have fr8 : ∀ q, (q < r ∨ r + 4 * nh ≤ q) → (q < t ∨ t + 8 * nh ≤ q) → m8 q = m q := fun q h1 h2 => by
    rw [k3 q (by omega) (by omega), z2 q (by omega), y2 q (by omega), fr5 q (by omega) (by omega)]
  -- the target
  have target : limbsVal L.mask (rd m a (2 * nh)) * limbsVal L.mask (rd m b (2 * nh))
      = A1 * B1 * (H * H) + (A1 * B0 + A0 * B1) * H + A0 * B0 := by rw [eA, eB]; ring
  have tlt : limbsVal L.mask (rd m a (2 * nh)) * limbsVal L.mask (rd m b (2 * nh)) < H * H * (H * H) := by
    have : L.mask ^ (2 * nh) = H * H := by rw [two_mul, pow_add]
    have e : limbsVal L.mask (rd m a (2 * nh)) * limbsVal L.mask (rd m b (2 * nh)) < H * H * (H * H) := by
      rw [eA, eB]
      rcases hcases with ⟨x, y⟩ | ⟨x, x', y⟩ | ⟨x, y, y'⟩
      · apply Nat.mul_lt_mul'' <;> nlinarith
      · rw [x, x', Nat.add_zero]
        exact Nat.mul_lt_mul_of_pos_left (by nlinarith) (by positivity)
      · rw [y, y', Nat.add_zero]
        exact Nat.mul_lt_mul_of_pos_right (by nlinarith) (by positivity)
    exact e
  rw [target] at tlt ⊢
  rw [show 2 * (2 * nh) = 4 * nh by omega, show 4 * (2 * nh) = 8 * nh by omega]
  have x1' : limbsVal L.mask (rd m8 r (4 * nh)) = A1 * B1 * (H * H) + A0 * B0 + A1 * B1 * H + A0 * B0 * H := by
    rw [er8, x1]
  have x2' : ValidLimbs L.mask (rd m8 r (nh + 2 * nh + nh)) := by rw [split, er8, ← split]; exact x2
  -- Step 6: same signs
  have plus : A1 * B1 + A0 * B0 + DA * DB = A1 * B0 + A0 * B1 →
      limbsVal L.mask (rd (propCarry L r0 nh s3.1 s3.2) r (4 * nh)) = A1 * B1 * (H * H) + (A1 * B0 + A0 * B1) * H + A0 * B0 ∧
      ValidLimbs L.mask (rd (propCarry L r0 nh s3.1 s3.2) r (4 * nh)) ∧
      ∀ q, (q < r ∨ r + 4 * nh ≤ q) → (q < t ∨ t + 8 * nh ≤ q) → propCarry L r0 nh s3.1 s3.2 q = m q := by
    intro heq
    have e : A1 * B1 * (H * H) + A0 * B0 + A1 * B1 * H + A0 * B0 * H + DA * DB * H
        = A1 * B1 * (H * H) + (A1 * B0 + A0 * B1) * H + A0 * B0 := by rw [← heq]; ring
    have := addMiddle_spec L m8 r nh (2 * nh) nh (t + 2 * nh) (DA * DB) (by unfold Disjoint2; omega) x2' k2 k1
      (by rw [split, x1', hHH, ← hH]; omega)
    obtain ⟨f1, f2, f3⟩ := this
    rw [split] at f1 f2
    rw [split, x1', ← hH, e] at f1
    exact ⟨f1, f2, fun q h1 h2 => (f3 q (by omega)).trans (fr8 q h1 h2)⟩
  have minus : A1 * B1 + A0 * B0 = A1 * B0 + A0 * B1 + DA * DB →
      limbsVal L.mask (rd (propBorrow L r0 nh s3'.1 s3'.2) r (4 * nh)) = A1 * B1 * (H * H) + (A1 * B0 + A0 * B1) * H + A0 * B0 ∧
      ValidLimbs L.mask (rd (propBorrow L r0 nh s3'.1 s3'.2) r (4 * nh)) ∧
      ∀ q, (q < r ∨ r + 4 * nh ≤ q) → (q < t ∨ t + 8 * nh ≤ q) → propBorrow L r0 nh s3'.1 s3'.2 q = m q := by
    intro heq
    have e : A1 * B1 * (H * H) + A0 * B0 + A1 * B1 * H + A0 * B0 * H
        = A1 * B1 * (H * H) + (A1 * B0 + A0 * B1) * H + A0 * B0 + DA * DB * H := by
      have : (A1 * B1 + A0 * B0) * H = (A1 * B0 + A0 * B1 + DA * DB) * H := by rw [heq]
      linarith
    have := subMiddle_spec L m8 r nh (2 * nh) nh (t + 2 * nh) (DA * DB) (by unfold Disjoint2; omega) x2' k2 k1
      (by rw [split, x1', ← hH]; omega)
    obtain ⟨f1, f2, f3⟩ := this
    rw [split] at f1 f2
    rw [split, x1', ← hH, e] at f1
    exact ⟨Nat.add_right_cancel f1, f2, fun q h1 h2 => (f3 q (by omega)).trans (fr8 q h1 h2)⟩
  have zero : A1 * B1 + A0 * B0 = A1 * B0 + A0 * B1 →
      limbsVal L.mask (rd m8 r (4 * nh)) = A1 * B1 * (H * H) + (A1 * B0 + A0 * B1) * H + A0 * B0 ∧
      ValidLimbs L.mask (rd m8 r (4 * nh)) ∧
      ∀ q, (q < r ∨ r + 4 * nh ≤ q) → (q < t ∨ t + 8 * nh ≤ q) → m8 q = m q := by
    intro heq
    refine ⟨?_, by rw [← split]; exact x2', fr8⟩
    rw [x1', ← heq]; ring
  rcases y3 with ⟨c1, d1⟩ | ⟨c1, d1⟩ | ⟨c1, d1⟩ <;> rcases z3 with ⟨c2, d2⟩ | ⟨c2, d2⟩ | ⟨c2, d2⟩ <;>
    rw [c1, c2] at hF
  · rw [if_pos (by norm_num)] at hF; rw [← hF]; exact plus (by rw [← d1, ← d2]; ring)
  · rw [if_neg (by norm_num), if_pos (by norm_num)] at hF; rw [← hF]; exact minus (by rw [← d1, ← d2]; ring)
  · rw [if_neg (by norm_num), if_neg (by norm_num)] at hF; rw [← hF]; exact zero (by rw [← d1, d2])
  · rw [if_neg (by norm_num), if_pos (by norm_num)] at hF; rw [← hF]; exact minus (by rw [← d1, ← d2]; ring)
  · rw [if_pos (by norm_num)] at hF; rw [← hF]; exact plus (by rw [← d1, ← d2]; ring)
  · rw [if_neg (by norm_num), if_neg (by norm_num)] at hF; rw [← hF]; exact zero (by rw [← d1, d2])
  · rw [if_neg (by norm_num), if_neg (by norm_num)] at hF; rw [← hF]; exact zero (by rw [d1, ← d2]; ring)
  · rw [if_neg (by norm_num), if_neg (by norm_num)] at hF; rw [← hF]; exact zero (by rw [d1, ← d2]; ring)
  · rw [if_neg (by norm_num), if_neg (by norm_num)] at hF; rw [← hF]; exact zero (by rw [d1, d2])

theorem kara_ok_mal (L : Limb) {n : Nat} (h : Halvable n) (h0 : 0 < n) : KaraOkMal L n := by
  induction h with
  | base hle => exact kara_base_mal L h0 hle
  | @dbl k _ ih =>
    by_cases hle : 2 * k ≤ 32
    · exact kara_base_mal L h0 hle
    · exact kara_step_mal L (by omega) hle (ih (by omega))

theorem radix_pad {B p n : Nat} (hp : 0 < p) (hn : p ≤ n) : radixLimbs B p ++ List.replicate (n - p) 0 = radixLimbs B n := by
  unfold radixLimbs
  rw [List.cons_append, List.replicate_append_replicate]; congr 2; omega

theorem karaProduct_mal {c : Cfg} {p : Nat} {a b : List Nat} (hp : p < 1793) (hp0 : 0 < p) (ha : a.length = p) (hb : b.length = p)
    (hab : (a = radixLimbs c.B p ∧ ValidLimbs c.B b) ∨ (ValidLimbs c.B a ∧ b = radixLimbs c.B p)) :
    ∃ k, karaProduct c p a b = (if a = radixLimbs c.B p then b else a) ++ List.replicate (p + k) 0 := by
  obtain ⟨h1, -, -, h4, h5⟩ := karaLen_least p (by omega)
  unfold karaProduct
  generalize karaLen p = n at *
  simp only
  set m : Mem := Mem.store (Mem.store (fun _ => 0) 0 a) n b with hm
  have ra : rd m 0 n = a ++ List.replicate (n - p) 0 := by
    have e1 : rd m 0 n = rd (Mem.store (fun _ => 0) 0 a) 0 n := rd_congr fun q _ h => by
      rw [hm, store_frame _ _ _ _ (by omega)]
    rw [e1, rd_store_pad _ _ _ _ (by omega) (fun _ _ _ => rfl), ha]
  have rb : rd m n n = b ++ List.replicate (n - p) 0 := by
    rw [hm, rd_store_pad _ _ _ _ (by omega) (fun q h1 h2 => by rw [store_frame _ _ _ _ (by omega)]), hb]
  have hpair : PairOk c.B (rd m 0 n) (rd m n n) := by
    rw [ra, rb]
    rcases hab with ⟨x, y⟩ | ⟨x, y⟩
    · refine Or.inr (Or.inl ⟨?_, ?_⟩)
      · rw [x, radix_pad hp0 h1, radixLimbs_length h5]
      · rw [validLimbs_append]; exact ⟨y, validLimbs_replicate c.B_pos⟩
    · refine Or.inr (Or.inr ⟨?_, ?_⟩)
      · rw [validLimbs_append]; exact ⟨x, validLimbs_replicate c.B_pos⟩
      · rw [y, radix_pad hp0 h1, radixLimbs_length h5]
  obtain ⟨k1, k2, -⟩ := kara_ok_mal c.L h4 h5 m (2 * n) 0 n (4 * n) (by unfold Disjoint2; omega) (by unfold Disjoint2; omega)
    (by unfold Disjoint2; omega) (by unfold Disjoint2; omega) (by unfold Disjoint2; omega) hpair
  change limbsVal c.B _ = limbsVal c.B _ * limbsVal c.B _ at k1
  change ValidLimbs c.B _ at k2
  have notv : ∀ l, ValidLimbs c.B l → l = radixLimbs c.B p → False := by
    intro l h1 h2
    have := h1 c.B (by rw [h2]; simp [radixLimbs])
    omega
  refine ⟨2 * n - 2 * p, ?_⟩
  have key : ∀ l : List Nat, l.length = p → ValidLimbs c.B l →
      limbsVal c.B (rd m 0 n) * limbsVal c.B (rd m n n) = limbsVal c.B l * c.B ^ (2 * n - p) →
      rd (kara c.L m (2 * n) 0 n n (4 * n)) (2 * n) (2 * n) = l ++ List.replicate (p + (2 * n - 2 * p)) 0 := by
    intro l hl hv he
    apply limbsVal_inj k2
    · rw [validLimbs_append]; exact ⟨hv, validLimbs_replicate c.B_pos⟩
    · simp; omega
    · rw [k1, he, limbsVal_zeros]; congr 2; omega
  rcases hab with ⟨x, y⟩ | ⟨x, y⟩
  · rw [if_pos x]
    apply key b hb y
    rw [ra, rb, x, radix_pad hp0 h1, radixLimbs_val h5, limbsVal_zeros, Nat.mul_comm, Nat.mul_assoc, ← pow_add]
    congr 2; omega
  · rw [if_neg (fun h => notv a x h)]
    apply key a ha x
    rw [ra, rb, y, radix_pad hp0 h1, radixLimbs_val h5, limbsVal_zeros, Nat.mul_assoc, ← pow_add]
    congr 2; omega

theorem ne_radix {B p : Nat} {l : List Nat} (h : ValidLimbs B l) : ¬ l = radixLimbs B p := by
  intro h2
  have := h B (by rw [h2]; simp [radixLimbs])
  omega

/-- The limb product below the FFT sizes, `[B, 0, …, 0]` on the left. -/
theorem prod_mal_left {c : Cfg} {p : Nat} {v : List Nat} (hp : p < 1793) (hp0 : 0 < p) (hl : v.length = p) (hv : ValidLimbs c.B v) :
    ∃ k, (if p < elemsForKara then schoolMul c.L (radixLimbs c.B p) v else karaProduct c p (radixLimbs c.B p) v) =
      v ++ List.replicate (p + k) 0 := by
  split
  · refine ⟨0, ?_⟩
    have := schoolMul_radix_left c.L hv (by omega)
    rw [hl] at this; exact this
  · obtain ⟨k, h⟩ := karaProduct_mal (c := c) hp hp0 (radixLimbs_length hp0) hl (Or.inl ⟨rfl, hv⟩)
    rw [if_pos rfl] at h
    exact ⟨k, h⟩

/-- The limb product below the FFT sizes, `[B, 0, …, 0]` on the right. -/
theorem prod_mal_right {c : Cfg} {p : Nat} {v : List Nat} (hp : p < 1793) (hp0 : 0 < p) (hl : v.length = p) (hv : ValidLimbs c.B v) :
    ∃ k, (if p < elemsForKara then schoolMul c.L v (radixLimbs c.B p) else karaProduct c p v (radixLimbs c.B p)) =
      v ++ List.replicate (p + k) 0 := by
  split
  · refine ⟨0, ?_⟩
    have := schoolMul_radix_right c.L hv (by omega)
    rw [hl] at this; exact this
  · obtain ⟨k, h⟩ := karaProduct_mal (c := c) hp hp0 hl (radixLimbs_length hp0) (Or.inr ⟨hv, rfl⟩)
    rw [if_neg (ne_radix hv)] at h
    exact ⟨k, h⟩

end WD
