import Verif.Proofs.Mul3

namespace WD
open DW

/-- A list of length ≥ 2 and its last two elements. -/
theorem list_last2 {l : List Nat} {n : Nat} (h : l.length = n + 2) : ∃ p a b, l = p ++ [a, b] ∧ p.length = n := by
  refine ⟨l.take n, l.getD n 0, l.getD (n + 1) 0, ?_, by simp [h]⟩
  have h1 : n < l.length := by omega
  have h2 : n + 1 < l.length := by omega
  conv_lhs => rw [← List.take_append_drop n l, List.drop_eq_getElem_cons h1, List.drop_eq_getElem_cons h2,
    List.drop_of_length_le (show l.length ≤ n + 1 + 1 by omega)]
  simp [List.getD, h1, h2]

theorem limbsVal_two (B a b : Nat) : limbsVal B [a, b] = a * B + b := by simp [limbsVal]

/-- Division by a divisor below the radix. `M`: the dividend's mantissa. -/
theorem divULL_core {c : Cfg} {x : DW} (hx : Full c x) (hxz : x.isZero = false) {n : Nat} (h1 : 1 < n) (hn : n < c.B) :
    let s := divLoop c.L n 0 (x.data.take x.prec)
    let d := s.1 ++ x.data.drop x.prec
    (d.headD 0 ≠ 0 → d.length = c.N ∧ ValidLimbs c.B d ∧
      limbsVal c.B d * n ≤ x.mant c ∧ x.mant c < (limbsVal c.B d + 1) * n) ∧
    (d.headD 0 = 0 →
      let r := ((d.drop 1).take (x.prec - 2) ++ d.drop (x.prec - 2)).set (x.prec - 1) ((s.2 * c.B / n) % c.L.W)
      r.length = c.N ∧ ValidLimbs c.B r ∧ r.headD 0 ≠ 0 ∧
      ∃ a b : Nat, a < c.B ∧ b < c.B ∧ a = d.getD (c.N - 2) 0 ∧ b = d.getD (c.N - 1) 0 ∧
        (limbsVal c.B r + b * c.B) * n ≤ x.mant c * c.B + a * c.B * n ∧
        x.mant c * c.B + a * c.B * n < (limbsVal c.B r + b * c.B + 1) * n) := by
  have h3 := c.three_le_N
  have hB := c.B_pos
  intro s d
  have htk : x.data.take x.prec = x.data := by rw [hx.full]; exact List.take_of_length_le (by rw [hx.len])
  have hdr : x.data.drop x.prec = [] := by rw [hx.full]; exact List.drop_of_length_le (by rw [hx.len])
  obtain ⟨q1, q2, q3, q4⟩ := divLoop_spec c.L (n := n) (by omega) hn.le 0 x.data (by omega) hx.valid
  have hs : s = divLoop c.L n 0 x.data := by show divLoop c.L n 0 (x.data.take x.prec) = _; rw [htk]
  have hd : d = s.1 := by show s.1 ++ x.data.drop x.prec = _; rw [hdr, List.append_nil]
  rw [← hs] at q1 q2 q3 q4
  rw [← hd] at q1 q2 q4
  rw [hx.len] at q1
  rw [Nat.zero_mul, Nat.zero_add] at q4
  have hM : x.mant c = limbsVal c.B x.data := rfl
  have q4' : limbsVal c.B d * n + s.2 = x.mant c := q4
  refine ⟨fun hne => ⟨q1, q2, by omega, ?_⟩, fun h0 => ?_⟩
  · rw [Nat.add_mul]; omega
  · intro r
    -- d = 0 :: e, e = p ++ [b]
    obtain ⟨k, hk⟩ : ∃ k, c.N = k + 3 := ⟨c.N - 3, by omega⟩
    obtain ⟨p, a, b, hp, hpl⟩ := list_last2 (l := d) (n := k + 1) (by rw [q1, hk])
    obtain ⟨z, p', hp'⟩ : ∃ z p', p = z :: p' := by
      cases p with
      | nil => simp at hpl
      | cons z p' => exact ⟨z, p', rfl⟩
    have hpl' : p'.length = k := by rw [hp', List.length_cons] at hpl; omega
    have hz0 : z = 0 := by rw [hp, hp'] at h0; simpa using h0
    subst hz0
    have hde : d = 0 :: (p' ++ [a, b]) := by rw [hp, hp']; rfl
    set t := (s.2 * c.B / n) % c.L.W with ht
    have htB : s.2 * c.B / n < c.B := by
      rw [Nat.div_lt_iff_lt_mul (by omega), Nat.mul_comm]
      exact Nat.mul_lt_mul_of_pos_left q3 hB
    have htt : t = s.2 * c.B / n := Nat.mod_eq_of_lt (by
      have := c.L.two_mask_lt
      have : c.B = c.L.mask := rfl
      omega)
    have hr : r = p' ++ [a] ++ [a, t] := by
      show ((d.drop 1).take (x.prec - 2) ++ d.drop (x.prec - 2)).set (x.prec - 1) t = _
      rw [hx.full, hk, hde]
      have e1 : ((0 :: (p' ++ [a, b])).drop 1).take (k + 3 - 2) = p' ++ [a] := by
        simp only [List.drop_succ_cons, List.drop_zero]
        rw [show k + 3 - 2 = k + 1 by omega, List.take_append, hpl', List.take_of_length_le (by omega)]
        simp
      have e2 : (0 :: (p' ++ [a, b])).drop (k + 3 - 2) = [a, b] := by
        rw [show k + 3 - 2 = k + 1 by omega, List.drop_succ_cons, List.drop_append, hpl', List.drop_of_length_le (by omega)]
        simp
      rw [e1, e2, List.set_append_right _ _ (by simp [hpl'])]
      have : k + 3 - 1 - (p' ++ [a]).length = 1 := by simp [hpl']
      rw [this]; rfl
    have hv := q2
    rw [hde] at hv
    have hv2 := validLimbs_append.mp (validLimbs_cons.mp hv).2
    have ha : a < c.B := hv2.2 a (by simp)
    have hb : b < c.B := hv2.2 b (by simp)
    have hval : limbsVal c.B r = (limbsVal c.B (p' ++ [a])) * c.B ^ 2 + (a * c.B + t) := by
      rw [hr, limbsVal_append, limbsVal_two]; simp
    have hdv : limbsVal c.B d = limbsVal c.B (p' ++ [a]) * c.B + b := by
      rw [hde, limbsVal_cons, Nat.zero_mul, Nat.zero_add, show p' ++ [a, b] = (p' ++ [a]) ++ [b] by simp, limbsVal_snoc]
    have hrest : s.2 * c.B = t * n + s.2 * c.B % n := by
      rw [htt, Nat.mul_comm (s.2 * c.B / n)]; exact (Nat.div_add_mod _ _).symm
    have hrl : s.2 * c.B % n < n := Nat.mod_lt _ (by omega)
    have hkey : x.mant c * c.B + a * c.B * n = (limbsVal c.B r + b * c.B) * n + s.2 * c.B % n := by
      obtain ⟨w, hw⟩ : ∃ w, s.2 * c.B % n = w := ⟨_, rfl⟩
      rw [hw] at hrest ⊢
      rw [← q4', Nat.add_mul, hrest, hval, hdv]; ring
    have hlen : r.length = c.N := by rw [hr, hk]; simp [hpl']
    have hrv : ValidLimbs c.B r := by
      rw [hr]
      refine validLimbs_append.mpr ⟨validLimbs_append.mpr ⟨hv2.1, ?_⟩, ?_⟩
      · exact validLimbs_cons.mpr ⟨ha, validLimbs_nil _⟩
      · exact validLimbs_cons.mpr ⟨ha, validLimbs_cons.mpr ⟨by rw [htt]; exact htB, validLimbs_nil _⟩⟩
    refine ⟨hlen, hrv, ?_, a, b, ha, hb, ?_, ?_, by rw [hkey]; omega, by rw [hkey, Nat.add_mul (_ + _) 1]; omega⟩
    · -- the second quotient limb is not zero
      intro hh
      have hpa : (p' ++ [a]).headD 0 = 0 := by
        rw [hr] at hh
        cases p' with
        | nil => simpa using hh
        | cons w ws => simpa using hh
      have hlt : limbsVal c.B (p' ++ [a]) < c.B ^ k := by
        obtain ⟨w, ws, hw⟩ := List.exists_cons_of_ne_nil (show p' ++ [a] ≠ [] by simp)
        have hwl : ws.length = k := by
          have : (p' ++ [a]).length = k + 1 := by simp [hpl']
          rw [hw, List.length_cons] at this; omega
        rw [hw] at hpa ⊢
        simp only [List.headD_cons] at hpa
        rw [limbsVal_cons, hpa, Nat.zero_mul, Nat.zero_add]
        have hvv : ValidLimbs c.B (p' ++ [a]) := validLimbs_append.mpr ⟨hv2.1, validLimbs_cons.mpr ⟨ha, validLimbs_nil _⟩⟩
        rw [hw] at hvv
        have := limbsVal_lt (validLimbs_cons.mp hvv).2
        rwa [hwl] at this
      have hge := hx.toWF.mant_ge hxz
      rw [hk, show k + 3 - 1 = k + 2 by omega] at hge
      have hdlt : limbsVal c.B d + 1 ≤ c.B ^ (k + 1) := by
        rw [hdv, pow_succ]
        have : limbsVal c.B (p' ++ [a]) + 1 ≤ c.B ^ k := hlt
        calc limbsVal c.B (p' ++ [a]) * c.B + b + 1 ≤ limbsVal c.B (p' ++ [a]) * c.B + c.B := by omega
          _ = (limbsVal c.B (p' ++ [a]) + 1) * c.B := by ring
          _ ≤ _ := Nat.mul_le_mul_right _ this
      have : x.mant c < c.B ^ (k + 1) * n := by
        calc x.mant c = limbsVal c.B d * n + s.2 := q4'.symm
          _ < (limbsVal c.B d + 1) * n := by rw [Nat.add_mul]; omega
          _ ≤ _ := Nat.mul_le_mul_right _ hdlt
      have h2 : c.B ^ (k + 1) * n < c.B ^ (k + 2) := by
        rw [pow_succ c.B (k + 1)]
        exact Nat.mul_lt_mul_of_pos_left hn (Nat.pow_pos hB)
      omega
    · rw [hde, hk, show k + 3 - 2 = k + 1 by omega, List.getD_cons_succ]
      simp [List.getD, List.getElem?_append_right, hpl']
    · rw [hde, hk, show k + 3 - 1 = k + 2 by omega, List.getD_cons_succ]
      simp [List.getD, List.getElem?_append_right, hpl']

/-- Division by an integer below the radix: well-formedness, sign and error. -/
theorem divULL_small {c : Cfg} {est : DW → DW} {fdig : Nat} {x : DW} (hx : Full c x) (hxz : x.isZero = false) {n : Nat}
    (h0 : 0 < n) (hn : n < c.B) (he : -(c.maxExp : ℤ) ≤ x.exp - c.ed) :
    let r := divULL c est fdig x n
    Full c r ∧ r.isZero = false ∧ r.neg = x.neg ∧
    |(|r.val c| - |x.val c| / n)| < r.ulp c * c.B ^ 2 ∧
    (r.exp = x.exp → |r.val c| ≤ |x.val c| / n ∧ |x.val c| / n < |r.val c| + r.ulp c) ∧
    (r.exp = x.exp ∨ r.exp = x.exp - c.ed) := by
  intro r
  have hB := c.B_pos
  have hB1 := c.one_lt_B
  have hed := c.ed_pos
  have hr : r = divULL c est fdig x n := rfl
  unfold divULL at hr
  simp only [hxz, Bool.false_eq_true, if_false] at hr
  rw [if_neg (by omega), if_neg (by omega)] at hr
  have hB2 : (1 : ℚ) ≤ (c.B : ℚ) ^ 2 := by
    have : (1 : ℚ) ≤ c.B := by exact_mod_cast hB
    nlinarith
  by_cases h1 : n > 1
  · obtain ⟨a1, a2⟩ := divULL_core hx hxz h1 hn
    simp only at a1 a2
    rw [if_pos h1] at hr
    have hnq : (0 : ℚ) < n := by exact_mod_cast h0
    set s := divLoop c.L n 0 (x.data.take x.prec) with hs
    set d := s.1 ++ x.data.drop x.prec with hd
    by_cases hh : d.headD 0 = 0
    · simp only [hh, if_true] at hr
      obtain ⟨b1, b2, b3, a, b, b4, b5, -, -, b8, b9⟩ := a2 hh
      set rr := ((d.drop 1).take (x.prec - 2) ++ d.drop (x.prec - 2)).set (x.prec - 1) ((s.2 * c.B / n) % c.L.W) with hrr
      rw [if_neg (by omega)] at hr
      have hwf : Full c r := by
        rw [hr]
        exact ⟨⟨b1, b2, dvd_sub hx.dvd (dvd_refl _), hx.prec2, hx.precN, fun h => absurd h b3⟩, hx.full⟩
      have hz : r.isZero = false := by rw [hr]; simpa [isZero, d0] using b3
      have hrm : r.mant c = limbsVal c.B rr := by rw [hr]; rfl
      have hre : r.exp = x.exp - c.ed := by rw [hr]
      have hux : x.ulp c = r.ulp c * c.B := by
        have := c.p10_mul_B (r.lexp c) 1
        rw [ulp_eq, ulp_eq, ← pow_one (c.B : ℚ), this]
        congr 1; unfold lexp; rw [hre]; push_cast; ring
      have hup := r.ulp_pos c
      refine ⟨hwf, hz, by rw [hr], ?_, fun h => by omega, Or.inr hre⟩
      have hrabs : |r.val c| = limbsVal c.B rr * r.ulp c := by rw [abs_val, hrm]; rfl
      have hxabs : |x.val c| = x.mant c * (r.ulp c * c.B) := by rw [abs_val, ← hux]; rfl
      rw [hrabs, hxabs]
      have e1 : ((limbsVal c.B rr : ℚ) + b * c.B) * n ≤ x.mant c * c.B + a * c.B * n := by exact_mod_cast b8
      have e2 : (x.mant c : ℚ) * c.B + a * c.B * n < (limbsVal c.B rr + b * c.B + 1) * n := by exact_mod_cast b9
      have e3 : (x.mant c : ℚ) * (r.ulp c * c.B) / n = (x.mant c * c.B / n) * r.ulp c := by ring
      rw [e3, ← sub_mul, abs_mul, abs_of_pos hup, mul_comm]
      apply mul_lt_mul_of_pos_left _ hup
      have hb4 : (a : ℚ) + 1 ≤ c.B := by exact_mod_cast b4
      have hb5 : (b : ℚ) + 1 ≤ c.B := by exact_mod_cast b5
      have ha0 : (0 : ℚ) ≤ a := by positivity
      have hb0 : (0 : ℚ) ≤ b := by positivity
      have hBq : (1 : ℚ) < c.B := by exact_mod_cast hB1
      have f1 : (limbsVal c.B rr : ℚ) + b * c.B - a * c.B ≤ x.mant c * c.B / n := by
        rw [le_div_iff₀ hnq]; linarith
      have f2 : (x.mant c : ℚ) * c.B / n < limbsVal c.B rr + b * c.B + 1 - a * c.B := by
        rw [div_lt_iff₀ hnq]; linarith
      rw [_root_.abs_lt]
      constructor <;> nlinarith
    · simp only [hh, if_false] at hr
      obtain ⟨b1, b2, b3, b4⟩ := a1 hh
      rw [if_neg (by omega)] at hr
      have hwf : Full c r := by
        rw [hr]
        exact ⟨⟨b1, b2, hx.dvd, hx.prec2, hx.precN, fun h => absurd h hh⟩, hx.full⟩
      have hz : r.isZero = false := by rw [hr]; simpa [isZero, d0] using hh
      have hrm : r.mant c = limbsVal c.B d := by rw [hr]; rfl
      have hre : r.exp = x.exp := by rw [hr]
      have hux : x.ulp c = r.ulp c := by unfold ulp; rw [hre]
      have hup := r.ulp_pos c
      have hrabs : |r.val c| = limbsVal c.B d * r.ulp c := by rw [abs_val, hrm]; rfl
      have hxabs : |x.val c| = x.mant c * r.ulp c := by rw [abs_val, ← hux]; rfl
      have e1 : (limbsVal c.B d : ℚ) * n ≤ x.mant c := by exact_mod_cast b3
      have e2 : (x.mant c : ℚ) < (limbsVal c.B d + 1) * n := by exact_mod_cast b4
      have g1 : |r.val c| ≤ |x.val c| / n := by
        rw [hrabs, hxabs, le_div_iff₀ hnq]
        calc (limbsVal c.B d : ℚ) * r.ulp c * n = limbsVal c.B d * n * r.ulp c := by ring
          _ ≤ _ := mul_le_mul_of_nonneg_right e1 hup.le
      have g2 : |x.val c| / n < |r.val c| + r.ulp c := by
        rw [hrabs, hxabs, div_lt_iff₀ hnq]
        calc (x.mant c : ℚ) * r.ulp c < (limbsVal c.B d + 1) * n * r.ulp c := mul_lt_mul_of_pos_right e2 hup
          _ = _ := by ring
      refine ⟨hwf, hz, by rw [hr], ?_, fun _ => ⟨g1, g2⟩, Or.inl hre⟩
      rw [_root_.abs_lt]
      constructor <;> nlinarith
  · have hn1 : n = 1 := by omega
    rw [if_neg h1, if_neg (by show ¬ x.exp < _; omega)] at hr
    have hrx : r = x := by rw [hr]
    have hup := x.ulp_pos c
    rw [hrx, hn1]
    refine ⟨hx, hxz, rfl, ?_, fun _ => ⟨by simp, by simpa using hup⟩, Or.inl rfl⟩
    simp only [Nat.cast_one, div_one, sub_self, abs_zero]
    exact mul_pos hup (by positivity)

end WD
