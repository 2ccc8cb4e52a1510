import Verif.Model.FloatOut
import Verif.Proofs.Print2
import Verif.Proofs.Float
/-
  Lemmas for C61: the text built by `extract_long_double` and its value.
-/
namespace WD
open DW Util

theorem takeWhile_dig {s : List Char} (hs : Dig s) (ch : Char) (hc : ch.isDigit = false) (t : List Char) :
    (s ++ ch :: t).takeWhile Char.isDigit = s ∧ (s ++ ch :: t).dropWhile Char.isDigit = ch :: t := by
  induction s with
  | nil => simp [hc]
  | cons a s ih =>
    have ha := hs a List.mem_cons_self
    obtain ⟨i1, i2⟩ := ih (fun x hx => hs x (List.mem_cons_of_mem _ hx))
    exact ⟨by rw [List.cons_append, List.takeWhile_cons_of_pos ha, i1], by rw [List.cons_append, List.dropWhile_cons_of_pos ha, i2]⟩

/-- The value of a text with sign, point and signed exponent. -/
theorem scanDec_text {a b e : List Char} (ha : Dig a) (hb : Dig b) (he : Dig e) (sn se : Bool) :
    scanDec ((if !sn then '+' else '-') :: (a ++ '.' :: (b ++ 'E' :: (if se then '-' else '+') :: e))) =
      (if sn then -1 else 1) * (digitsVal (a ++ b) : ℚ) * (10 : ℚ) ^ ((if se then -(digitsVal e : ℤ) else digitsVal e) - b.length) := by
  obtain ⟨p1, p2⟩ := takeWhile_dig ha '.' (by decide) (b ++ 'E' :: (if se then '-' else '+') :: e)
  obtain ⟨q1, q2⟩ := takeWhile_dig hb 'E' (by decide) ((if se then '-' else '+') :: e)
  have hab := strtoul_dig (ha.append hb)
  have hee := strtoul_dig he
  cases sn <;> cases se <;>
    simp only [scanDec, List.head?_cons, List.tail_cons, Bool.not_true, Bool.not_false, if_true, if_false, Bool.false_eq_true, reduceCtorEq, Option.some.injEq,
      Char.reduceEq, or_true, or_false, true_or, false_or] at * <;>
    simp only [p1, p2, q1, q2, List.head?_cons, List.tail_cons, if_true, if_false, Option.some.injEq, Char.reduceEq, or_true, or_false, true_or, false_or,
      hab, hee]

theorem ldElems_le (c : Cfg) (md : ℕ) : ldElems c md ≤ c.N := by
  unfold ldElems; dsimp only; split <;> split <;> omega

theorem ldElems_pos (c : Cfg) (md : ℕ) : 1 ≤ ldElems c md := by
  have := c.three_le_N
  have := Nat.zero_le (md / c.ed)
  unfold ldElems; dsimp only
  split_ifs <;> first | omega | exact Nat.le_add_left _ _

theorem ldElems_cases (c : Cfg) (md : ℕ) : ldElems c md = c.N ∨ md ≤ c.ed * (ldElems c md - 1) := by
  unfold ldElems; dsimp only
  have h := Nat.div_add_mod md c.ed
  have hl := Nat.mod_lt md c.ed_pos
  split_ifs with h1 h2 h3
  · right; simp only [Nat.add_sub_cancel, Nat.mul_add, Nat.mul_one]; omega
  · left; rfl
  · right; simp only [Nat.add_sub_cancel, Nat.add_zero]; omega
  · left; rfl

/-- The text: its parts, and when it fits with a terminating zero. -/
theorem ldText_spec {c : Cfg} {x : DW} (hx : WF c x) (md : ℕ) {ew : ℕ} (hew : 1 ≤ ew) (he : x.exp.natAbs < 10 ^ ew) :
    ∃ s, (ldText c md ew x = if orderOf x.d0 + orderOf x.exp.natAbs < c.ed + ew then some s else none) ∧
      scanDec s = (if x.neg then -1 else 1) * (limbsVal c.B (x.data.take (ldElems c md)) : ℚ) *
        (10 : ℚ) ^ (x.exp - c.ed * ((ldElems c md : ℤ) - 1)) := by
  have hN := c.three_le_N
  have hed := c.ed_pos
  have hB : c.B = 10 ^ c.ed := rfl
  have k1 := ldElems_pos c md
  have k2 := ldElems_le c md
  obtain ⟨e, e1, e2, e3, e4, -, -⟩ := blc10 ew ew x.exp.natAbs he le_rfl hew
  unfold ldText ldCap
  generalize ldElems c md = k at *
  rcases hdd : x.data with - | ⟨y, ys⟩
  · have := hx.len; rw [hdd] at this; simp at this; omega
  · have hv := hx.valid
    rw [hdd, validLimbs_cons] at hv
    have hyl : ys.length = c.N - 1 := by have := hx.len; rw [hdd] at this; simp at this; omega
    have hd0 : x.d0 = y := by unfold d0; rw [hdd]; rfl
    obtain ⟨a, a1, a2, a3, a4, -, a6, a7⟩ := blc10 c.ed c.ed y hv.1 le_rfl hed
    have htk : ((y :: ys).take k) = y :: ys.take (k - 1) := by
      cases k with
      | zero => omega
      | succ k => simp
    have hvt : ValidLimbs (10 ^ c.ed) (ys.take (k - 1)) := fun z hz => hv.2 z (List.mem_of_mem_take hz)
    obtain ⟨s, h1, h2, h3, h4, -⟩ := limbsChars_spec c.ed hed _ hvt
    have hlen : (ys.take (k - 1)).length = k - 1 := List.length_take_of_le (by omega)
    rw [hlen] at h3
    rw [htk, List.drop_one, List.tail_cons, hd0, a1, h1, e1]
    refine ⟨(if !x.neg then '+' else '-') :: (a ++ '.' :: (s ++ 'E' :: (if x.exp < 0 then '-' else '+') :: e)), ?_, ?_⟩
    · have hl : ((if !x.neg then '+' else '-') :: (a ++ '.' :: (s ++ 'E' :: (if x.exp < 0 then '-' else '+') :: e))).length =
          orderOf y + c.ed * (k - 1) + orderOf x.exp.natAbs + 4 := by
        simp [a4, h3, e4]; omega
      show (if _ < _ then some _ else none) = _
      rw [hl]
      have hk : k * c.ed = c.ed * (k - 1) + c.ed := by
        obtain ⟨j, rfl⟩ : ∃ j, k = j + 1 := ⟨k - 1, by omega⟩
        simp; ring
      refine if_congr ?_ rfl rfl
      rw [hk]; omega
    · have := scanDec_text a2 h2 e2 x.neg (decide (x.exp < 0))
      simp only [decide_eq_true_eq] at this
      rw [this, digitsVal_append, a3, h4, h3, e3, limbsVal_cons, hlen, ← hB]
      congr 2
      · rw [hB, ← pow_mul]
      · have hk : ((c.ed * (k - 1) : ℕ) : ℤ) = c.ed * ((k : ℤ) - 1) := by push_cast [k1]; ring
        rw [hk]
        split <;> omega

/-- The text has the value of the number, cut off (toward zero) behind the last limb written. -/
theorem ldText_val {c : Cfg} {x : DW} (hx : WF c x) (md : ℕ) :
    (limbsVal c.B (x.data.take (ldElems c md)) : ℚ) * (10 : ℚ) ^ (x.exp - c.ed * ((ldElems c md : ℤ) - 1)) =
      ⌊|x.val c| / (10 : ℚ) ^ (x.exp - c.ed * ((ldElems c md : ℤ) - 1))⌋ * (10 : ℚ) ^ (x.exp - c.ed * ((ldElems c md : ℤ) - 1)) := by
  have k2 := ldElems_le c md
  generalize ldElems c md = k at *
  congr 1
  rw [limbsVal_take c.B_pos hx.valid, hx.len, abs_val]
  have h1 : (mant c x : ℚ) * (10 : ℚ) ^ (x.lexp c) / (10 : ℚ) ^ (x.exp - c.ed * ((k : ℤ) - 1)) = (limbsVal c.B x.data : ℚ) / ((c.B ^ (c.N - k) : ℕ) : ℚ) := by
    have h2 : (10 : ℚ) ^ (x.exp - c.ed * ((k : ℤ) - 1)) = (10 : ℚ) ^ (x.lexp c) * ((c.B ^ (c.N - k) : ℕ) : ℚ) := by
      rw [c.B_eq, ← pow_mul, Nat.cast_pow, ← zpow_natCast, Nat.cast_ofNat, ← zpow_add₀ (by norm_num)]
      congr 1
      unfold lexp
      push_cast [k2]; ring
    rw [h2]; unfold mant
    have h3 : (10 : ℚ) ^ (x.lexp c) ≠ 0 := by positivity
    field_simp
  rw [h1, Rat.floor_natCast_div_natCast]
  norm_cast

theorem orderOf_lt_pow {n k : ℕ} (hk : 1 ≤ k) (h : n < 10 ^ k) : orderOf n ≤ k := by
  obtain ⟨-, o2, o3⟩ := orderOf_digits n
  rcases Nat.eq_zero_or_pos n with rfl | h0
  · rw [orderOf]; simpa using hk
  · have := (Nat.pow_lt_pow_iff_right (a := 10) (by norm_num)).mp (lt_of_le_of_lt (o2 h0) h)
    omega

theorem pow_le_orderOf {n k : ℕ} (h : 10 ^ k ≤ n) : k < orderOf n := by
  obtain ⟨o1, -, -⟩ := orderOf_digits n
  exact (Nat.pow_lt_pow_iff_right (a := 10) (by norm_num)).mp (lt_of_le_of_lt h o1)

theorem d0_lt_radix {c : Cfg} {x : DW} (hx : WF c x) : x.d0 < c.B := by
  have hN := c.three_le_N
  rcases hdd : x.data with - | ⟨y, ys⟩
  · have := hx.len; rw [hdd] at this; simp at this; omega
  · have hv := hx.valid
    rw [hdd, validLimbs_cons] at hv
    unfold d0; rw [hdd]; exact hv.1

/-- A text that fits: the value is cut off toward zero. -/
theorem ldText_fits {c : Cfg} {x : DW} (hx : WF c x) (md : ℕ) {ew : ℕ} (hew : 2 ≤ ew) (he : x.exp.natAbs < 10 ^ (ew - 1)) :
    ∃ s, ldText c md ew x = some s ∧ scanDec s = (if x.neg then -1 else 1) *
      (⌊|x.val c| / (10 : ℚ) ^ (x.exp - c.ed * ((ldElems c md : ℤ) - 1))⌋ * (10 : ℚ) ^ (x.exp - c.ed * ((ldElems c md : ℤ) - 1))) := by
  obtain ⟨s, h1, h2⟩ := ldText_spec hx md (ew := ew) (by omega) (lt_of_lt_of_le he (Nat.pow_le_pow_right (by norm_num) (by omega)))
  have o1 := orderOf_lt_pow (by omega : 1 ≤ ew - 1) he
  have o2 := orderOf_lt_pow c.ed_pos (show x.d0 < 10 ^ c.ed from d0_lt_radix hx)
  refine ⟨s, by rw [h1, if_pos (by omega)], ?_⟩
  rw [h2, mul_assoc, ldText_val hx md]

/-- The cut-off part is less than one unit of the digit `md` behind the first. -/
theorem cut_err {c : Cfg} {x : DW} (hx : WF c x) (hx0 : x.val c ≠ 0) (md : ℕ) :
    let v := (⌊|x.val c| / (10 : ℚ) ^ (x.exp - c.ed * ((ldElems c md : ℤ) - 1))⌋ * (10 : ℚ) ^ (x.exp - c.ed * ((ldElems c md : ℤ) - 1)) : ℚ)
    v ≤ |x.val c| ∧ |x.val c| - v ≤ |x.val c| / 10 ^ md := by
  intro v
  have hk := ldElems_cases c md
  have k1 := ldElems_pos c md
  have k2 := ldElems_le c md
  have hval := ldText_val hx md
  change _ = v at hval
  have p1 : (0 : ℚ) < (10 : ℚ) ^ (x.exp - c.ed * ((ldElems c md : ℤ) - 1)) := by positivity
  have f1 := Int.floor_le (|x.val c| / (10 : ℚ) ^ (x.exp - c.ed * ((ldElems c md : ℤ) - 1)))
  have f2 := Int.lt_floor_add_one (|x.val c| / (10 : ℚ) ^ (x.exp - c.ed * ((ldElems c md : ℤ) - 1)))
  rw [le_div_iff₀ p1] at f1
  rw [div_lt_iff₀ p1, add_mul, one_mul] at f2
  refine ⟨f1, ?_⟩
  rcases hk with hk | hk
  · have : v = |x.val c| := by
      rw [← hval, hk, List.take_of_length_le (by rw [hx.len]), abs_val]; rfl
    rw [this, sub_self]; positivity
  · have hge := hx.abs_ge (by
      by_contra h
      exact hx0 (hx.isZero_iff.mp (by simpa using h)))
    have : (10 : ℚ) ^ (x.exp - c.ed * ((ldElems c md : ℤ) - 1)) ≤ |x.val c| / 10 ^ md := by
      rw [le_div_iff₀ (by positivity)]
      refine le_trans ?_ hge
      rw [← zpow_natCast, ← zpow_add₀ (by norm_num)]
      refine zpow_le_zpow_right₀ (by norm_num) ?_
      have : ((c.ed * (ldElems c md - 1) : ℕ) : ℤ) = c.ed * ((ldElems c md : ℤ) - 1) := by push_cast [k1]; ring
      omega
    linarith

/-- Two different numbers of p bits are apart. -/
theorem repF_gap {p : ℕ} {x y : ℚ} (hx : RepF p x) (hy : RepF p y) (h : x ≠ y) : |x| ≤ 2 ^ (p + 1) * |x - y| := by
  obtain ⟨m, k, hm, rfl⟩ := hx
  obtain ⟨n, l, hn, rfl⟩ := hy
  have hmq : |(m : ℚ)| ≤ 2 ^ p := by exact_mod_cast hm
  have hnq : |(n : ℚ)| ≤ 2 ^ p := by exact_mod_cast hn
  have one_le : ∀ t : ℤ, t ≠ 0 → (1 : ℚ) ≤ |(t : ℚ)| := by
    intro t ht
    have : (1 : ℤ) ≤ |t| := Int.one_le_abs ht
    exact_mod_cast this
  have h2 : (1 : ℚ) ≤ 2 ^ p := one_le_pow₀ (by norm_num)
  rcases le_total k l with hkl | hkl
  · obtain ⟨j, rfl⟩ : ∃ j : ℕ, l = k + j := ⟨(l - k).toNat, by omega⟩
    have e : (m : ℚ) * 2 ^ k - n * 2 ^ (k + (j : ℤ)) = ((m - n * 2 ^ j : ℤ) : ℚ) * 2 ^ k := by
      rw [zpow_add₀ (by norm_num), zpow_natCast]; push_cast; ring
    have hz : m - n * 2 ^ j ≠ 0 := by
      intro hz
      apply h
      rw [← sub_eq_zero, e, hz]; simp
    have h1 := one_le _ hz
    have pk : (0 : ℚ) < 2 ^ k := by positivity
    rw [e, abs_mul, abs_mul, abs_of_pos pk, ← mul_assoc]
    refine mul_le_mul_of_nonneg_right ?_ pk.le
    rw [pow_succ]; nlinarith
  · obtain ⟨j, rfl⟩ : ∃ j : ℕ, k = l + j := ⟨(k - l).toNat, by omega⟩
    have e : (m : ℚ) * 2 ^ (l + (j : ℤ)) - n * 2 ^ l = ((m * 2 ^ j - n : ℤ) : ℚ) * 2 ^ l := by
      rw [zpow_add₀ (by norm_num), zpow_natCast]; push_cast; ring
    have e' : (m : ℚ) * 2 ^ (l + (j : ℤ)) = ((m * 2 ^ j : ℤ) : ℚ) * 2 ^ l := by
      rw [zpow_add₀ (by norm_num), zpow_natCast]; push_cast; ring
    have hz : m * 2 ^ j - n ≠ 0 := by
      intro hz
      apply h
      rw [← sub_eq_zero, e, hz]; simp
    have h1 := one_le _ hz
    have pk : (0 : ℚ) < 2 ^ l := by positivity
    rw [e, e', abs_mul, abs_mul, abs_of_pos pk, ← mul_assoc]
    refine mul_le_mul_of_nonneg_right ?_ pk.le
    generalize m * 2 ^ j = a at *
    push_cast at h1 ⊢
    have h3 : |(a : ℚ)| ≤ |(a : ℚ) - n| + |(n : ℚ)| := by
      have := abs_add_le ((a : ℚ) - n) n
      rwa [sub_add_cancel] at this
    rw [pow_succ]; nlinarith

/-- Cutting off keeps the order. -/
theorem cut_mono {c : Cfg} {x y : DW} (hx : WF c x) (hy : WF c y) (h : |x.val c| ≤ |y.val c|) (md : ℕ) :
    (⌊|x.val c| / (10 : ℚ) ^ (x.exp - c.ed * ((ldElems c md : ℤ) - 1))⌋ * (10 : ℚ) ^ (x.exp - c.ed * ((ldElems c md : ℤ) - 1)) : ℚ) ≤
      ⌊|y.val c| / (10 : ℚ) ^ (y.exp - c.ed * ((ldElems c md : ℤ) - 1))⌋ * (10 : ℚ) ^ (y.exp - c.ed * ((ldElems c md : ℤ) - 1)) := by
  have k1 := ldElems_pos c md
  have nonneg : ∀ e : ℤ, (0 : ℚ) ≤ ⌊|y.val c| / (10 : ℚ) ^ e⌋ * (10 : ℚ) ^ e := by
    intro e
    have : (0 : ℤ) ≤ ⌊|y.val c| / (10 : ℚ) ^ e⌋ := Int.floor_nonneg.mpr (by positivity)
    have : (0 : ℚ) ≤ ⌊|y.val c| / (10 : ℚ) ^ e⌋ := by exact_mod_cast this
    positivity
  by_cases hx0 : x.val c = 0
  · rw [hx0, abs_zero, zero_div, Int.floor_zero, Int.cast_zero, zero_mul]
    exact nonneg _
  have hy0 : y.val c ≠ 0 := by
    intro h0; rw [h0, abs_zero] at h
    exact hx0 (abs_eq_zero.mp (le_antisymm h (abs_nonneg _)))
  have zf : ∀ {z : DW}, WF c z → z.val c ≠ 0 → z.isZero = false := by
    intro z hz h0
    by_contra h
    exact h0 (hz.isZero_iff.mp (by simpa using h))
  have x1 := hx.abs_ge (zf hx hx0)
  have x2 := hx.abs_lt
  have y1 := hy.abs_ge (zf hy hy0)
  have y2 := hy.abs_lt
  obtain ⟨i, hi⟩ := hx.dvd
  obtain ⟨j, hj⟩ := hy.dvd
  have hed : (0 : ℤ) < c.ed := by exact_mod_cast c.ed_pos
  have hlt : x.exp < y.exp + c.ed := (zpow_lt_zpow_iff_right₀ (by norm_num : (1 : ℚ) < 10)).mp (lt_of_le_of_lt x1 (lt_of_le_of_lt h y2))
  have hij : i ≤ j := by
    rw [hi, hj] at hlt
    have : (c.ed : ℤ) * i < c.ed * (j + 1) := by linarith
    have := lt_of_mul_lt_mul_left this hed.le
    omega
  rcases eq_or_lt_of_le hij with rfl | hlt'
  · rw [hi, hj]
    have p : (0 : ℚ) < (10 : ℚ) ^ ((c.ed : ℤ) * i - c.ed * ((ldElems c md : ℤ) - 1)) := by positivity
    refine mul_le_mul_of_nonneg_right ?_ p.le
    exact_mod_cast Int.floor_le_floor (div_le_div_of_nonneg_right h p.le)
  · have he : x.exp + c.ed ≤ y.exp := by
      rw [hi, hj]
      have : (c.ed : ℤ) * (i + 1) ≤ c.ed * j := mul_le_mul_of_nonneg_left (by omega) hed.le
      linarith
    obtain ⟨q1, -⟩ := cut_err hx hx0 md
    refine le_trans q1 (le_trans x2.le (le_trans (zpow_le_zpow_right₀ (by norm_num) he) ?_))
    have hn : ((c.ed * (ldElems c md - 1) : ℕ) : ℤ) = c.ed * ((ldElems c md : ℤ) - 1) := by push_cast [k1]; ring
    rw [← hn]
    generalize c.ed * (ldElems c md - 1) = n
    have e1 : (10 : ℚ) ^ y.exp = ((10 ^ n : ℤ) : ℚ) * (10 : ℚ) ^ (y.exp - (n : ℤ)) := by
      push_cast
      rw [← zpow_natCast, ← zpow_add₀ (by norm_num)]; congr 1; ring
    have p : (0 : ℚ) < (10 : ℚ) ^ (y.exp - (n : ℤ)) := by positivity
    rw [e1]
    refine mul_le_mul_of_nonneg_right ?_ p.le
    have : (10 ^ n : ℤ) ≤ ⌊|y.val c| / (10 : ℚ) ^ (y.exp - (n : ℤ))⌋ := by
      rw [Int.le_floor, le_div_iff₀ p, ← e1]; exact y1
    exact_mod_cast this

end WD
