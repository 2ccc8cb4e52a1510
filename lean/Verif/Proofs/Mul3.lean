import Verif.Proofs.Mul2

namespace WD
open DW

theorem ofUnsigned64 (c : Cfg) (n : Nat) : ofUnsigned c 64 n = fromULL c n false := by
  unfold ofUnsigned
  rw [if_neg]
  cases c.L <;> simp [Limb.bits]

theorem fromULL_exp (c : Cfg) {n : Nat} (hn : n < 2 ^ 64) (h0 : 0 < n) :
    0 ≤ (fromULL c n false).exp ∧ (fromULL c n false).exp < orderOf n := by
  obtain ⟨a, b, d, e, f, g⟩ := fromULL_spec c n hn false
  constructor
  · unfold fromULL; simp only; split
    · positivity
    · exact le_refl _
  · have hz : (fromULL c n false).isZero = false := by
      cases h : (fromULL c n false).isZero
      · rfl
      · have := f.mp h; omega
    have h1 := a.toWF.abs_ge hz
    have h2 := (orderOf_digits n).1
    have h3 : (n : ℚ) < 10 ^ (orderOf n : ℤ) := by rw [zpow_natCast]; exact_mod_cast h2
    exact (zpow_lt_zpow_iff_right₀ (by norm_num : (1:ℚ) < 10)).mp (lt_of_le_of_lt h1 (lt_of_le_of_lt b h3))

/-- Multiplication by a factor below the radix is the truncated product. -/
theorem mulULL_small {c : Cfg} {x : DW} (hx : Full c x) (hxz : x.isZero = false) {n : Nat} (h0 : 0 < n) (hn : n < c.B)
    (he : x.exp + orderOf n < c.maxExp) :
    Full c (mulULL c x n) ∧ (mulULL c x n).isZero = false ∧ (mulULL c x n).neg = x.neg ∧
    |(mulULL c x n).val c| ≤ |x.val c| * n ∧ |x.val c| * n < |(mulULL c x n).val c| + (mulULL c x n).ulp c := by
  have h3 := c.three_le_N
  unfold mulULL
  have hz' : ({ x with neg := false } : DW).isZero = false := hxz
  simp only [hz', Bool.false_eq_true, false_or]
  rw [if_neg (by omega), if_neg (by omega), if_neg (by omega)]
  by_cases h1 : n = 1
  · rw [if_pos h1, h1]
    refine ⟨hx, hxz, rfl, by simp, ?_⟩
    have := x.ulp_pos c
    simp; exact this
  · rw [if_neg h1]
    obtain ⟨s1, s2, s3, s4⟩ := mulLoop_spec c.L hn (x.data.take x.prec) (hx.valid.take _)
    rw [hx.full] at s1 s2 s3 s4 ⊢
    have htl := take_length' hx.len (le_refl c.N)
    have hdrop : x.data.drop c.N = [] := by rw [← hx.len, List.drop_length]
    rw [htl] at s1 s4
    change limbsVal c.B _ + _ * c.B ^ c.N = limbsVal c.B (x.data.take c.N) * n at s4
    generalize mulLoop c.L n (x.data.take c.N) = s at *
    rw [hdrop, List.append_nil, List.append_nil]
    have hm : limbsVal c.B (x.data.take c.N) = x.mant c := mantp_N hx.len
    rw [hm] at s4
    have hlow : c.B ^ (c.N - 1) ≤ x.mant c * n := by
      calc _ ≤ x.mant c := hx.toWF.mant_ge hxz
        _ ≤ _ := Nat.le_mul_of_pos_right _ h0
    generalize hr : (if s.2 ≠ 0 then ({ x with data := s.2 :: s.1.take (c.N - 1), exp := x.exp + c.ed, prec := c.N } : DW)
      else { x with data := s.1, prec := c.N }) = r
    have hrr : r.neg = x.neg ∧ r.prec = c.N ∧
        (if s.2 ≠ 0 then r.data = s.2 :: s.1.take (c.N - 1) ∧ r.exp = x.exp + c.ed else r.data = s.1 ∧ r.exp = x.exp) := by
      rw [← hr]; split <;> exact ⟨rfl, rfl, rfl, rfl⟩
    obtain ⟨q1, q2, q3, q4, q5, -⟩ := store_carry s1 s2 (by rcases s3 with h | h <;> omega) s4 hlow hx.dvd
      (by rw [hrr.2.1]; omega) (by rw [hrr.2.1]) hrr.2.2
    have hv : |x.val c| * n = ((x.mant c * n : Nat) : ℚ) * 10 ^ (x.exp - (c.ed : ℤ) * ((c.N : ℤ) - 1)) := by
      rw [abs_val]; unfold lexp; push_cast; ring
    rw [hv]
    refine ⟨⟨q1, hrr.2.1⟩, q2, hrr.1, q4, lt_of_lt_of_le ?_ q5⟩
    rw [add_mul, one_mul]; linarith [p10_pos (x.exp - (c.ed : ℤ) * ((c.N : ℤ) - 1))]

theorem mulULL_spec {c : Cfg} {x : DW} (hx : Full c x) (hxz : x.isZero = false) {n : Nat} (h0 : 0 < n) (hn : n < 2 ^ 64)
    (hcap : n < c.B ^ c.N) (hok : MulOk c c.N) (hlo : -(c.maxExp : ℤ) < x.exp) (he : x.exp + orderOf n < c.maxExp) :
    Full c (mulULL c x n) ∧ (mulULL c x n).isZero = false ∧ (mulULL c x n).neg = x.neg ∧
    ((|(mulULL c x n).val c| ≤ |x.val c| * n ∧ |x.val c| * n < |(mulULL c x n).val c| + (mulULL c x n).ulp c) ∨
     (|x.val c| = nearOne c ∧ c.B ≤ n ∧ |x.val c| * n ≤ |(mulULL c x n).val c| ∧
       |(mulULL c x n).val c| < |x.val c| * n + (mulULL c x n).ulp c)) := by
  by_cases hB : n < c.B
  · obtain ⟨a, b, d, e⟩ := mulULL_small hx hxz h0 hB he
    exact ⟨a, b, d, Or.inl e⟩
  · have e1 : mulULL c x n = mulAssign c x (fromULL c n false) := by
      unfold mulULL
      have hz' : ({ x with neg := false } : DW).isZero = false := hxz
      simp only [hz', Bool.false_eq_true, false_or]
      rw [if_neg (by omega), if_neg (by omega), if_pos (by omega), ofUnsigned64]
    rw [e1]
    obtain ⟨a, b, d, e, f, g⟩ := fromULL_spec c n hn false
    have hyz : (fromULL c n false).isZero = false := by
      cases h : (fromULL c n false).isZero
      · rfl
      · have := f.mp h; omega
    obtain ⟨x1, x2⟩ := fromULL_exp c hn h0
    obtain ⟨q1, q2, q3, -, q5⟩ := mulAssign_full hx a hxz hyz hok (by omega) (by omega)
    rw [g hcap] at q5
    refine ⟨q1, q2, by rw [q3, e]; cases x.neg <;> rfl, ?_⟩
    rcases q5 with h | ⟨h, h1, h2⟩
    · exact Or.inl h
    · rcases h with ⟨h, -⟩ | ⟨h, -⟩
      · exact Or.inr ⟨h, by omega, h1, h2⟩
      · exfalso
        have := (nearOne_lt c).1
        have h1 : (1:ℚ) ≤ n := by exact_mod_cast h0
        linarith

end WD
