import Verif.Spec
import Verif.Model.Kara
import Verif.Model.Tables
import Verif.Proofs.Kara
import Verif.Props.Tables
/-
  C18 – C23: the limb-array routines, stated about memory contents before and after the call.
  `rd m p n` are the n limbs at address p, `limbsVal` the natural number they denote.
-/
namespace WD

/-- C18 (addition). The destination may be one of the operands or disjoint from it. The result limbs and the carry
    together are the exact sum, the limbs are proper digits, and nothing outside the destination changes. -/
theorem limb_add_exact (L : Limb) (m : Mem) (r u v n : Nat)
    (hu : r = u ∨ Disjoint2 r n u n) (hv : r = v ∨ Disjoint2 r n v n)
    (vu : ValidLimbs L.mask (rd m u n)) (vv : ValidLimbs L.mask (rd m v n)) :
    limbsVal L.mask (rd (addMem L r u v n m 0).1 r n) + (addMem L r u v n m 0).2 * L.mask ^ n
      = limbsVal L.mask (rd m u n) + limbsVal L.mask (rd m v n) ∧
    (addMem L r u v n m 0).2 ≤ 1 ∧
    ValidLimbs L.mask (rd (addMem L r u v n m 0).1 r n) ∧
    ∀ q, (q < r ∨ r + n ≤ q) → (addMem L r u v n m 0).1 q = m q := by
  obtain ⟨h1, h2, h3⟩ := addMem_spec L n m 0 (show SameOrDisj r u n from hu) (show SameOrDisj r v n from hv)
  obtain ⟨s1, s2, s3, s4⟩ := addC_spec L (Nat.zero_le 1) (rd m u n) (rd m v n) (by simp) vu vv
  rw [h1, h2]
  exact ⟨by simpa using s4, s3, s2, h3⟩

/-- Non-vacuity: in place 99|99 + 00|01 with 8-bit limbs overflows to 00|00 carry 1. -/
example : rd (addMem .u8 0 0 2 2 (fun q => [99, 99, 0, 1].getD q 0) 0).1 0 2 = [0, 0] ∧
    (addMem .u8 0 0 2 2 (fun q => [99, 99, 0, 1].getD q 0) 0).2 = 1 := by decide

/-- C18 (subtraction), same aliasing rules: difference plus borrow accounts exactly. -/
theorem limb_sub_exact (L : Limb) (m : Mem) (r u v n : Nat)
    (hu : r = u ∨ Disjoint2 r n u n) (hv : r = v ∨ Disjoint2 r n v n)
    (vu : ValidLimbs L.mask (rd m u n)) (vv : ValidLimbs L.mask (rd m v n)) :
    limbsVal L.mask (rd (subMem L r u v n m 0).1 r n) + limbsVal L.mask (rd m v n)
      = limbsVal L.mask (rd m u n) + (subMem L r u v n m 0).2 * L.mask ^ n ∧
    (subMem L r u v n m 0).2 ≤ 1 ∧
    ValidLimbs L.mask (rd (subMem L r u v n m 0).1 r n) ∧
    ∀ q, (q < r ∨ r + n ≤ q) → (subMem L r u v n m 0).1 q = m q := by
  obtain ⟨h1, h2, h3⟩ := subMem_spec L n m 0 (show SameOrDisj r u n from hu) (show SameOrDisj r v n from hv)
  obtain ⟨s1, s2, s3, s4⟩ := subC_spec L (Nat.zero_le 1) (rd m u n) (rd m v n) (by simp) vu vv
  rw [h1, h2]
  exact ⟨by simpa using s4, s3, s2, h3⟩

/-- Non-vacuity: destination = subtrahend, 01|00 - 00|01 = 00|99 without borrow. -/
example : rd (subMem .u8 2 0 2 2 (fun q => [1, 0, 0, 1].getD q 0) 0).1 2 2 = [0, 99] ∧
    (subMem .u8 2 0 2 2 (fun q => [1, 0, 0, 1].getD q 0) 0).2 = 0 := by decide

/-- C19. `compare_ranges` is the three-way comparison of the denoted integers. -/
theorem compare_ranges_is_order (B : Nat) (a b : List Nat) (hl : a.length = b.length)
    (ha : ValidLimbs B a) (hb : ValidLimbs B b) :
    (compareRanges a b = -1 ↔ limbsVal B a < limbsVal B b) ∧
    (compareRanges a b = 0 ↔ limbsVal B a = limbsVal B b) ∧
    (compareRanges a b = 1 ↔ limbsVal B b < limbsVal B a) := by
  rw [compareRanges_spec B a b hl ha hb]
  unfold cmp3
  refine ⟨?_, ?_, ?_⟩ <;> split_ifs <;> simp <;> omega

example : compareRanges [5, 99, 0] [6, 0, 0] = -1 ∧ compareRanges [1, 2] [1, 2] = 0 := by decide

/-- C20 (partial: the 16-bit limb type is covered only up to 42 limbs; `school_u16_overflow` shows that the full
    claim, up to 112 limbs, is false for it). For the 8- and 32-bit limb types every length below the Karatsuba
    threshold (113) is covered. -/
theorem school_mul_exact_partial (L : Limb) (a b : List Nat) (hl : a.length = b.length) (hpos : 0 < a.length)
    (hn : a.length ≤ match L with | .u8 => 112 | .u16 => 42 | .u32 => 112)
    (ha : ValidLimbs L.mask a) (hb : ValidLimbs L.mask b) :
    (schoolMul L a b).length = 2 * a.length ∧ ValidLimbs L.mask (schoolMul L a b) ∧
    limbsVal L.mask (schoolMul L a b) = limbsVal L.mask a * limbsVal L.mask b :=
  schoolMul_spec L hl hpos ha hb (by cases L <;> simp only [schoolSafe] at hn ⊢ <;> omega)

example : schoolMul .u32 [99999999, 99999999] [99999999, 99999999] = [99999999, 99999998, 0, 1] := by decide

/-- The full C20 claim is false: 43 limbs of 9999 times themselves overflow the 32-bit column accumulator
    (reachable: 16-bit limbs use the schoolbook routine up to 112 limbs, e.g. 160 decimal digits). -/
theorem school_u16_overflow :
    limbsVal 10000 (schoolMul .u16 (List.replicate 43 9999) (List.replicate 43 9999))
      ≠ limbsVal 10000 (List.replicate 43 9999) * limbsVal 10000 (List.replicate 43 9999) := by
  decide +kernel

/-- C21 and C22. For every requested limb count for which the class selects Karatsuba (indeed up to 2^21), with the padded length
    `n = karaLen k`, operands anywhere, result area of 2n limbs and scratch area of 4n limbs, pairwise disjoint from
    the operands: the result area denotes the exact product, and every cell outside the result and scratch areas –
    in particular both operands – is unchanged. -/
theorem kara_mul_exact (L : Limb) (k : Nat) (hk : k ≤ 2097152) (m : Mem) (r a b t : Nat)
    (hra : Disjoint2 r (2 * karaLen k) a (karaLen k)) (hrb : Disjoint2 r (2 * karaLen k) b (karaLen k))
    (hrt : Disjoint2 r (2 * karaLen k) t (4 * karaLen k))
    (hta : Disjoint2 t (4 * karaLen k) a (karaLen k)) (htb : Disjoint2 t (4 * karaLen k) b (karaLen k))
    (va : ValidLimbs L.mask (rd m a (karaLen k))) (vb : ValidLimbs L.mask (rd m b (karaLen k))) :
    limbsVal L.mask (rd (kara L m r a b (karaLen k) t) r (2 * karaLen k))
      = limbsVal L.mask (rd m a (karaLen k)) * limbsVal L.mask (rd m b (karaLen k)) ∧
    ValidLimbs L.mask (rd (kara L m r a b (karaLen k) t) r (2 * karaLen k)) :=
  have h := kara_ok L (karaLen_least k hk).2.2.2.1 (karaLen_least k hk).2.2.2.2
  ⟨(h m r a b t hra hrb hrt hta htb va vb).1, (h m r a b t hra hrb hrt hta htb va vb).2.1⟩

/-- C22. -/
theorem kara_mul_frame (L : Limb) (k : Nat) (hk : k ≤ 2097152) (m : Mem) (r a b t : Nat)
    (hra : Disjoint2 r (2 * karaLen k) a (karaLen k)) (hrb : Disjoint2 r (2 * karaLen k) b (karaLen k))
    (hrt : Disjoint2 r (2 * karaLen k) t (4 * karaLen k))
    (hta : Disjoint2 t (4 * karaLen k) a (karaLen k)) (htb : Disjoint2 t (4 * karaLen k) b (karaLen k))
    (va : ValidLimbs L.mask (rd m a (karaLen k))) (vb : ValidLimbs L.mask (rd m b (karaLen k))) :
    (∀ q, (q < r ∨ r + 2 * karaLen k ≤ q) → (q < t ∨ t + 4 * karaLen k ≤ q) →
        kara L m r a b (karaLen k) t q = m q) ∧
    rd (kara L m r a b (karaLen k) t) a (karaLen k) = rd m a (karaLen k) ∧
    rd (kara L m r a b (karaLen k) t) b (karaLen k) = rd m b (karaLen k) := by
  have h := kara_ok L (karaLen_least k hk).2.2.2.1 (karaLen_least k hk).2.2.2.2
  have hf := (h m r a b t hra hrb hrt hta htb va vb).2.2
  unfold Disjoint2 at *
  refine ⟨hf, rd_congr fun q h1 h2 => hf q ?_ ?_, rd_congr fun q h1 h2 => hf q ?_ ?_⟩ <;> omega

/-- Non-vacuity: the pool layout of the class (operands at 0 and n, result at 2n, scratch at 4n) meets the hypotheses
    for every n, and a memory full of 99s is valid; here with the 113-limb request, n = 128. -/
example : let n := karaLen 113
    n = 128 ∧ Disjoint2 (2 * n) (2 * n) 0 n ∧ Disjoint2 (2 * n) (2 * n) n n ∧ Disjoint2 (2 * n) (2 * n) (4 * n) (4 * n) ∧
    Disjoint2 (4 * n) (4 * n) 0 n ∧ Disjoint2 (4 * n) (4 * n) n n ∧
    ValidLimbs Limb.u8.mask (rd (fun _ => 99) 0 n) := by
  refine ⟨by decide, ?_, ?_, ?_, ?_, ?_, ?_⟩
  all_goals first | (unfold Disjoint2; decide) | skip
  exact valid_rd.mpr fun q _ _ => by decide

/-- C23 (multiply). Product limbs and carry are exact; the carry is a proper digit. -/
theorem mul_loop_exact (L : Limb) (n : Nat) (hn : n < L.mask) (u : List Nat) (hu : ValidLimbs L.mask u) :
    limbsVal L.mask (mulLoop L n u).1 + (mulLoop L n u).2 * L.mask ^ u.length = limbsVal L.mask u * n ∧
    (mulLoop L n u).1.length = u.length ∧ ValidLimbs L.mask (mulLoop L n u).1 ∧ (mulLoop L n u).2 < L.mask := by
  obtain ⟨h1, h2, h3, h4⟩ := mulLoop_spec L hn u hu
  exact ⟨h4, h1, h2, by have := L.mask_pos; omega⟩

example : mulLoop .u8 99 [99, 99] = ([99, 1], 98) := by decide

/-- C23 (divide). Quotient limbs and remainder are the exact quotient and remainder. -/
theorem div_loop_exact (L : Limb) (n : Nat) (h0 : 0 < n) (hn : n < L.mask) (u : List Nat) (hu : ValidLimbs L.mask u) :
    limbsVal L.mask (divLoop L n 0 u).1 = limbsVal L.mask u / n ∧
    (divLoop L n 0 u).2 = limbsVal L.mask u % n ∧
    (divLoop L n 0 u).1.length = u.length ∧ ValidLimbs L.mask (divLoop L n 0 u).1 := by
  obtain ⟨h1, h2, h3, h4⟩ := divLoop_spec L h0 hn.le 0 u h0 hu
  simp only [zero_mul, zero_add] at h4
  have := (Nat.div_mod_unique h0 (a := limbsVal L.mask u) (c := (divLoop L n 0 u).2)
    (d := limbsVal L.mask (divLoop L n 0 u).1)).mpr ⟨by rw [← h4]; ring, h3⟩
  exact ⟨this.1.symm, this.2.symm, h1, h2⟩

example : divLoop .u8 7 0 [1, 0, 0] = ([0, 14, 28], 4) := by decide

end WD
