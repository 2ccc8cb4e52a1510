import Verif.Proofs.Print3
import Verif.Props.Mul
/-
  Order preservation of addition and multiplication (used by C70).
-/
namespace WD
open DW

theorem ulp_le_of_exp {c : Cfg} {x y : DW} (h : x.exp ≤ y.exp) : x.ulp c ≤ y.ulp c := by
  rw [ulp_eq, ulp_eq]
  exact zpow_le_zpow_right₀ (by norm_num) (by unfold lexp; omega)

theorem exp_le_of_abs {c : Cfg} {x y : DW} (hx : WF c x) (hy : WF c y) (hxz : x.isZero = false)
    (h : |x.val c| ≤ |y.val c|) : x.exp ≤ y.exp := by
  by_contra hh
  have := abs_lt_of_exp_lt hy hx hxz (by omega)
  linarith

/-- Powers of ten: the smaller unit divides the larger one. -/
theorem ulp_dvd_of_exp {c : Cfg} {x y : DW} (h : x.exp ≤ y.exp) : ∃ k : ℤ, y.ulp c = k * x.ulp c := by
  refine ⟨10 ^ (y.exp - x.exp).toNat, ?_⟩
  rw [ulp_eq, ulp_eq]
  push_cast
  rw [← zpow_natCast, ← zpow_add₀ (by norm_num)]
  congr 1; unfold lexp; omega

/-- Truncation to the internal precision is monotone. -/
theorem trunc_mono {c : Cfg} {r1 r2 : DW} {S1 S2 : ℚ} (h1 : WF c r1) (h2 : WF c r2) (z2 : r2.isZero = false)
    (a : |r1.val c| ≤ S1) (b : S2 < |r2.val c| + r2.ulp c) (h : S1 ≤ S2) : |r1.val c| ≤ |r2.val c| := by
  by_contra hh
  have := trunc_exact h2 h1 z2 (by linarith) (by linarith)
  linarith

/-- z ≥ 0 and x ≤ y: the sums are ordered. -/
theorem add_mono_pos {c : Cfg} {x y z : DW} (hx : Full c x) (hy : Full c y) (hz : Full c z) (hzp : 0 ≤ z.val c)
    (h : x.val c ≤ y.val c) : (addAssign c x z).val c ≤ (addAssign c y z).val c := by
  cases hzz : z.isZero
  swap
  · have e : ∀ u : DW, Full c u → (addAssign c u z).val c = u.val c := fun u hu => by
      rw [addAssign_comm hu hz, addAssign_zero_left hzz]
    rw [e x hx, e y hy]; exact h
  have zp : 0 < z.val c := by
    rcases hzp.lt_or_eq with h | h
    · exact h
    · exact absurd (hz.toWF.isZero_iff.mpr h.symm) (by rw [hzz]; simp)
  have sg : ∀ u : DW, Full c u → u.isZero = false → (0 < u.val c ↔ u.neg = false) := by
    intro u hu huz
    have := hu.toWF.abs_pos huz
    constructor
    · intro h1
      cases hn : u.neg
      · rfl
      · have := WF.val_of_neg (c := c) hn; linarith
    · intro h1; rw [WF.val_of_pos h1]; exact this
  have zn : z.neg = false := (sg z hz hzz).mp zp
  -- a non-negative summand: truncation of the exact sum
  have pos : ∀ u : DW, Full c u → 0 ≤ u.val c → (WF c (addAssign c u z) ∧ (addAssign c u z).isZero = false ∧
      (addAssign c u z).val c = |(addAssign c u z).val c| ∧
      |(addAssign c u z).val c| ≤ u.val c + z.val c ∧
      u.val c + z.val c < |(addAssign c u z).val c| + (addAssign c u z).ulp c) := by
    intro u hu hu0
    cases huz : u.isZero
    · have up : 0 < u.val c := by
        rcases hu0.lt_or_eq with h | h
        · exact h
        · exact absurd (hu.toWF.isZero_iff.mpr h.symm) (by rw [huz]; simp)
      have un := (sg u hu huz).mp up
      obtain ⟨q1, q2, q3, -, -, q6, q7⟩ := addAssign_same hu hz huz hzz (by rw [un, zn])
      rw [← WF.val_of_pos (c := c) un, ← WF.val_of_pos (c := c) zn] at q6 q7
      exact ⟨q1.toWF, q3, WF.val_of_pos (by rw [q2, un]), q6, q7⟩
    · rw [addAssign_zero_left huz, hu.toWF.isZero_iff.mp huz]
      refine ⟨hz.toWF, hzz, WF.val_of_pos zn, ?_, ?_⟩
      · rw [← WF.val_of_pos (c := c) zn]; linarith
      · rw [← WF.val_of_pos (c := c) zn]; linarith [z.ulp_pos c]
  -- a negative summand
  have neg : ∀ u : DW, Full c u → u.val c < 0 → u.isZero = false ∧ u.neg ≠ z.neg := by
    intro u hu hu0
    have huz := isZero_false_of_val hu.toWF hu0.ne
    refine ⟨huz, fun e => ?_⟩
    have := (sg u hu huz).mpr (by rw [e, zn]); linarith
  rcases le_or_gt 0 (x.val c) with hx0 | hx0
  · obtain ⟨a1, a2, a3, a4, a5⟩ := pos x hx hx0
    obtain ⟨b1, b2, b3, b4, b5⟩ := pos y hy (by linarith)
    rw [a3, b3]
    exact trunc_mono a1 b1 b2 a4 b5 (by linarith)
  · obtain ⟨xz, xn⟩ := neg x hx hx0
    obtain ⟨-, p1, p2, p3, -⟩ := addAssign_opp hx hz xz hzz xn
    have zabs : |z.val c| = z.val c := abs_of_pos zp
    have xabs : |x.val c| = -x.val c := abs_of_neg hx0
    -- when the exact sum is positive the unit is that of z
    have mz : ∀ u : DW, Full c u → u.val c < 0 → 0 ≤ u.val c + z.val c → max (u.ulp c) (z.ulp c) = z.ulp c := by
      intro u hu hu0 hs
      obtain ⟨uz, -⟩ := neg u hu hu0
      exact max_eq_right (ulp_le_of_exp (exp_le_of_abs hu.toWF hz.toWF uz (by rw [zabs, abs_of_neg hu0]; linarith)))
    rcases le_or_gt 0 (y.val c) with hy0 | hy0
    · obtain ⟨b1, b2, b3, b4, b5⟩ := pos y hy hy0
      have hzy : z.val c ≤ (addAssign c y z).val c := by
        rw [b3, ← zabs]
        exact trunc_mono hz.toWF b1 b2 zabs.le b5 (by linarith)
      refine le_trans ?_ hzy
      rcases le_or_gt 0 (x.val c + z.val c) with hs | hs
      · obtain ⟨-, w⟩ := p1 hs
        rw [mz x hx hx0 hs] at w p3
        obtain ⟨m, hm⟩ := p3
        obtain ⟨k, hk⟩ := val_mul_ulp c z
        have hu := z.ulp_pos c
        by_contra hh
        push Not at hh
        rw [hm, hk] at hh
        have h1 : (k : ℚ) < m := lt_of_mul_lt_mul_right hh hu.le
        have h2 : (k : ℚ) + 1 ≤ m := by exact_mod_cast h1
        have h3 : ((k : ℚ) + 1) * z.ulp c ≤ m * z.ulp c := mul_le_mul_of_nonneg_right h2 hu.le
        rw [hm] at w
        have : ((k : ℚ) + 1) * z.ulp c = z.val c + z.ulp c := by rw [hk]; ring
        linarith
      · have := (p2 hs.le).1; linarith
    · obtain ⟨yz, yn⟩ := neg y hy hy0
      obtain ⟨-, q1, q2, q3, -⟩ := addAssign_opp hy hz yz hzz yn
      have hexp : y.exp ≤ x.exp := exp_le_of_abs hy.toWF hx.toWF yz (by rw [xabs, abs_of_neg hy0]; linarith)
      rcases le_or_gt 0 (x.val c + z.val c) with hs | hs
      · obtain ⟨w1, w2⟩ := p1 hs
        obtain ⟨v1, v2⟩ := q1 (by linarith)
        rw [mz x hx hx0 hs] at w2 p3
        rw [mz y hy hy0 (by linarith)] at v2 q3
        obtain ⟨m, hm⟩ := p3
        obtain ⟨k, hk⟩ := q3
        have hu := z.ulp_pos c
        by_contra hh
        push Not at hh
        have hh' := hh
        rw [hm, hk] at hh'
        have h1 : (k : ℚ) < m := lt_of_mul_lt_mul_right hh' hu.le
        have h2 : (k : ℚ) + 1 ≤ m := by exact_mod_cast h1
        have h3 : ((k : ℚ) + 1) * z.ulp c ≤ m * z.ulp c := mul_le_mul_of_nonneg_right h2 hu.le
        rw [← hm, add_mul, ← hk, one_mul] at h3
        linarith
      · obtain ⟨w1, w2⟩ := p2 hs.le
        rcases le_or_gt 0 (y.val c + z.val c) with ht | ht
        · have := (q1 ht).1; linarith
        · obtain ⟨v1, v2⟩ := q2 ht.le
          -- the unit of the y-sum divides that of the x-sum
          have hd : ∃ k : ℤ, max (x.ulp c) (z.ulp c) = k * max (y.ulp c) (z.ulp c) := by
            have hux : y.ulp c ≤ x.ulp c := ulp_le_of_exp hexp
            rcases le_total x.exp z.exp with h1 | h1
            · rw [max_eq_right (ulp_le_of_exp h1), max_eq_right (ulp_le_of_exp (hexp.trans h1))]
              exact ⟨1, by simp⟩
            · rw [max_eq_left (ulp_le_of_exp h1)]
              rcases le_total y.exp z.exp with h2 | h2
              · rw [max_eq_right (ulp_le_of_exp h2)]; exact ulp_dvd_of_exp h1
              · rw [max_eq_left (ulp_le_of_exp h2)]; exact ulp_dvd_of_exp hexp
          obtain ⟨d, hd⟩ := hd
          obtain ⟨m, hm⟩ := p3
          obtain ⟨k, hk⟩ := q3
          have hu : 0 < max (y.ulp c) (z.ulp c) := lt_max_of_lt_left (y.ulp_pos c)
          rw [hd] at hm
          generalize max (y.ulp c) (z.ulp c) = M at *
          by_contra hh
          push Not at hh
          have hh' := hh
          rw [hm, hk, ← mul_assoc] at hh'
          have h1 : (k : ℚ) < m * d := lt_of_mul_lt_mul_right hh' hu.le
          have h2 : (k : ℚ) + 1 ≤ m * d := by exact_mod_cast h1
          have h3 : ((k : ℚ) + 1) * M ≤ (m * d) * M := mul_le_mul_of_nonneg_right h2 hu.le
          rw [mul_assoc, ← hm, add_mul, ← hk, one_mul] at h3
          linarith

theorem addAssign_mono {c : Cfg} {x y z : DW} (hx : Full c x) (hy : Full c y) (hz : Full c z)
    (h : x.val c ≤ y.val c) : (addAssign c x z).val c ≤ (addAssign c y z).val c := by
  rcases le_total 0 (z.val c) with h0 | h0
  · exact add_mono_pos hx hy hz h0 h
  · have := add_mono_pos (negate_full hy) (negate_full hx) (negate_full hz)
      (by rw [negate_val c hz.toWF]; linarith) (by rw [negate_val c hx.toWF, negate_val c hy.toWF]; linarith)
    rw [addAssign_neg hx hz, addAssign_neg hy hz] at this
    linarith

/-! ### Multiplication -/

/-- Two different magnitudes: the smaller is at most the larger times 0.99…9. -/
theorem abs_le_nearOne {c : Cfg} {x y : DW} (hx : WF c x) (hy : WF c y) (hyz : y.isZero = false)
    (h : |x.val c| < |y.val c|) : |x.val c| ≤ |y.val c| * nearOne c := by
  cases hxz : x.isZero
  swap
  · rw [hx.isZero_iff.mp hxz, abs_zero]; exact mul_nonneg (abs_nonneg _) (nearOne_lt c).2.le
  have he := exp_le_of_abs hx hy hxz h.le
  rcases he.lt_or_eq with he | he
  · -- |x| ≤ 10^(ex+ed) - ulp x = 10^(ex+ed) · nearOne
    have h1 : |x.val c| ≤ 10 ^ (x.exp + c.ed) * nearOne c := by
      have e1 : (10 : ℚ) ^ (x.exp + c.ed) * nearOne c = 10 ^ (x.exp + c.ed) - x.ulp c := by
        unfold nearOne
        rw [mul_sub, mul_one, ← zpow_add₀ (by norm_num), ulp_eq]
        congr 2; unfold lexp; ring
      rw [e1, abs_val, ulp_eq]
      have h1 : (x.mant c : ℚ) + 1 ≤ ((c.B ^ c.N : Nat) : ℚ) := by exact_mod_cast hx.mant_lt
      have h2 := c.p10_mul_B (x.lexp c) c.N
      have h3 : x.lexp c + (c.ed : ℤ) * (c.N : ℤ) = x.exp + c.ed := by unfold lexp; ring
      rw [h3] at h2
      push_cast at h1
      have := mul_le_mul_of_nonneg_left h1 (p10_pos (x.lexp c)).le
      rw [h2] at this
      linarith
    refine h1.trans (mul_le_mul_of_nonneg_right ?_ (nearOne_lt c).2.le)
    refine le_trans (zpow_le_zpow_right₀ (by norm_num) ?_) (hy.abs_ge hyz)
    have := hx.dvd; have := hy.dvd
    obtain ⟨a, ha⟩ := hx.dvd
    obtain ⟨b, hb⟩ := hy.dvd
    rw [ha, hb] at he ⊢
    have hed : (0 : ℤ) < c.ed := by exact_mod_cast c.ed_pos
    have : a + 1 ≤ b := by
      by_contra hh
      have : b ≤ a := by omega
      nlinarith
    nlinarith
  · have hl : x.lexp c = y.lexp c := by unfold lexp; rw [he]
    have e := nearOne_err hy
    have hu : x.ulp c = y.ulp c := by rw [ulp_eq, ulp_eq, hl]
    rw [abs_val, abs_val, hl] at h
    have h1 : (x.mant c : ℚ) < y.mant c := lt_of_mul_lt_mul_right h (p10_pos _).le
    have h2 : (x.mant c : ℚ) + 1 ≤ y.mant c := by exact_mod_cast h1
    have h3 := mul_le_mul_of_nonneg_right h2 (y.ulp_pos c).le
    have : |x.val c| + y.ulp c ≤ |y.val c| := by
      rw [abs_val, abs_val, hl, ← ulp_eq]; linarith
    linarith

/-- What a product is, symmetric in the factors: truncated, or one factor was 0.99…9 and the other is returned. -/
def ProdOf (c : Cfg) (r x z : DW) : Prop :=
  WF c r ∧ r.isZero = false ∧
  ((|r.val c| ≤ |x.val c| * |z.val c| ∧ |x.val c| * |z.val c| < |r.val c| + r.ulp c) ∨
   ((|x.val c| = nearOne c ∧ |r.val c| = |z.val c| ∨ |z.val c| = nearOne c ∧ |r.val c| = |x.val c|) ∧
      |x.val c| * |z.val c| ≤ |r.val c|))

theorem prodOf_mono {c : Cfg} {r s x y z : DW} (hx : WF c x) (hy : WF c y) (hz : WF c z) (hyz : y.isZero = false)
    (h : |x.val c| < |y.val c|) (hr : ProdOf c r x z) (hs : ProdOf c s y z) : |r.val c| ≤ |s.val c| := by
  obtain ⟨r1, r2, r3⟩ := hr
  obtain ⟨s1, s2, s3⟩ := hs
  have hz0 := abs_nonneg (z.val c)
  have hxy : |x.val c| * |z.val c| ≤ |y.val c| * |z.val c| := mul_le_mul_of_nonneg_right h.le hz0
  have hlt := abs_le_nearOne hx hy hyz h
  have hn := nearOne_lt c
  rcases r3 with ⟨a, b⟩ | ⟨hA, a⟩
  · rcases s3 with ⟨d, e⟩ | ⟨hB, d⟩
    · exact trunc_mono r1 s1 s2 a e hxy
    · linarith
  · rcases s3 with ⟨d, e⟩ | ⟨hB, d⟩
    · rcases hA with ⟨h1, h2⟩ | ⟨h1, h2⟩
      · -- y ≥ 1, z ≤ trunc (y z)
        have hy1 : 1 ≤ |y.val c| := by
          by_contra hh
          push Not at hh
          have o := one_full c
          have ov : (one c).val c = 1 := one_val c
          have oz : (one c).isZero = false := isZero_false_of_val o.toWF (by rw [ov]; norm_num)
          have := abs_le_nearOne hy o.toWF oz (by rw [ov, abs_one]; exact hh)
          rw [ov, abs_one, one_mul] at this
          linarith
        rw [h2]
        exact trunc_mono hz s1 s2 (le_refl _) e (by nlinarith)
      · rw [h2]
        rw [h1] at e
        exact trunc_mono hx s1 s2 hlt e (le_refl _)
    · rcases hA with ⟨h1, h2⟩ | ⟨h1, h2⟩ <;> rcases hB with ⟨g1, g2⟩ | ⟨g1, g2⟩ <;> rw [h2, g2] <;> linarith

theorem mulAssign_prodOf {c : Cfg} {x y : DW} (hx : Full c x) (hy : Full c y) (hxz : x.isZero = false)
    (hyz : y.isZero = false) (hok : MulOk c c.N)
    (hlo : -(c.maxExp : ℤ) < x.exp + y.exp) (hhi : x.exp + y.exp < c.maxExp) :
    ProdOf c (mulAssign c x y) x y ∧ ProdOf c (mulAssign c x y) y x := by
  obtain ⟨a, b, -, -, d⟩ := mulAssign_full hx hy hxz hyz hok hlo hhi
  refine ⟨⟨a.toWF, b, ?_⟩, ⟨a.toWF, b, ?_⟩⟩
  · rcases d with d | ⟨d, e, -⟩
    · exact Or.inl d
    · exact Or.inr ⟨d, e⟩
  · rw [mul_comm]
    rcases d with d | ⟨d, e, -⟩
    · exact Or.inl d
    · exact Or.inr ⟨d.symm, e⟩

theorem neg_of_val {c : Cfg} {x : DW} (hx : WF c x) (h : x.val c ≠ 0) : (x.neg = true ↔ x.val c < 0) := by
  have p := hx.abs_pos (isZero_false_of_val hx h)
  constructor
  · intro hn; have := WF.val_of_neg (c := c) hn; linarith
  · intro hn
    cases hh : x.neg
    · have := WF.val_of_pos (c := c) hh; linarith
    · rfl

theorem mono_of_abs {c : Cfg} {f : DW → DW} {P : DW → Prop} (hab : ∀ u v : DW, Full c u → Full c v → P u → P v → u.isZero = false → v.isZero = false →
      |u.val c| < |v.val c| → |(f u).val c| ≤ |(f v).val c|)
    (hsg : ∀ u : DW, Full c u → P u → u.isZero = false → (f u).val c = (if u.neg then -1 else 1) * |(f u).val c|)
    (hz : ∀ u : DW, Full c u → P u → u.isZero = true → (f u).val c = 0)
    {x y : DW} (hx : Full c x) (hy : Full c y) (px : P x) (py : P y) (h : x.val c ≤ y.val c) : (f x).val c ≤ (f y).val c := by
  have an : ∀ q : ℚ, 0 ≤ |q| := abs_nonneg
  cases hxz : x.isZero
  · have x0 : x.val c ≠ 0 := fun e => by rw [hx.toWF.isZero_iff.mpr e] at hxz; simp at hxz
    have nx := neg_of_val hx.toWF x0
    cases hyz : y.isZero
    · have y0 : y.val c ≠ 0 := fun e => by rw [hy.toWF.isZero_iff.mpr e] at hyz; simp at hyz
      have ny := neg_of_val hy.toWF y0
      rcases h.lt_or_eq with h | h
      · have sx := hsg x hx px hxz
        have sy := hsg y hy py hyz
        rw [sx, sy]
        cases hnx : x.neg <;> cases hny : y.neg
        · have := hab x y hx hy px py hxz hyz (by rw [← WF.val_of_pos (c := c) hnx, ← WF.val_of_pos (c := c) hny]; exact h)
          simpa using this
        · have h1 := ny.mp hny
          have h2 := WF.val_of_pos (c := c) hnx
          linarith [an (x.val c)]
        · simp only [if_true, Bool.false_eq_true, if_false]; linarith [an ((f x).val c), an ((f y).val c)]
        · have := hab y x hy hx py px hyz hxz (by
            have a := WF.val_of_neg (c := c) hnx; have b := WF.val_of_neg (c := c) hny; linarith)
          simp only [if_true]; linarith
      · rw [repr_unique hx hy x0 h]
    · rw [hz y hy py hyz]
      have hy0 := hy.toWF.isZero_iff.mp hyz
      rw [hy0] at h
      have : x.neg = true := nx.mpr (lt_of_le_of_ne h x0)
      rw [hsg x hx px hxz, this]; simp only [if_true]; linarith [an ((f x).val c)]
  · rw [hz x hx px hxz]
    have hx0 := hx.toWF.isZero_iff.mp hxz
    rw [hx0] at h
    cases hyz : y.isZero
    · have : y.neg = false := by
        cases hn : y.neg
        · rfl
        · have a := WF.val_of_neg (c := c) hn
          have := hy.toWF.abs_pos hyz
          linarith
      rw [hsg y hy py hyz, this]; simp only [Bool.false_eq_true, if_false]; linarith [an ((f y).val c)]
    · rw [hz y hy py hyz]

end WD
