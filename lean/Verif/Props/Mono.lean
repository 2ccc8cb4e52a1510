import Verif.Proofs.Mono
/-
  C70: rounding keeps the order.  The rounding of `+=`, `-=`, `*=` differs from case to case (sums of equal signs are
  truncated, differences rounded away from zero to the coarser unit, products truncated, 0.99…9 is treated as one), so the
  order of results does not follow from the error bounds; it holds nevertheless.
-/
namespace WD
open DW

/-- C70 (addition). x ≤ y implies x + z ≤ y + z and z + x ≤ z + y, for all full-precision x, y, z. -/
theorem add_monotone (c : Cfg) (x y z : DW) (hx : Full c x) (hy : Full c y) (hz : Full c z) (h : x.val c ≤ y.val c) :
    (addAssign c x z).val c ≤ (addAssign c y z).val c ∧ (addAssign c z x).val c ≤ (addAssign c z y).val c := by
  have := addAssign_mono hx hy hz h
  exact ⟨this, by rwa [addAssign_comm hz hx, addAssign_comm hz hy]⟩

/-- C70 (subtraction). x ≤ y implies x − z ≤ y − z and z − y ≤ z − x. -/
theorem sub_monotone (c : Cfg) (x y z : DW) (hx : Full c x) (hy : Full c y) (hz : Full c z) (h : x.val c ≤ y.val c) :
    (subAssign c x z).val c ≤ (subAssign c y z).val c ∧ (subAssign c z y).val c ≤ (subAssign c z x).val c := by
  have h1 : (subAssign c x z).val c ≤ (subAssign c y z).val c := by
    rw [subAssign_val hx hz, subAssign_val hy hz]
    have := addAssign_mono (negate_full hy) (negate_full hx) hz (by rw [negate_val c hx.toWF, negate_val c hy.toWF]; linarith)
    linarith
  refine ⟨h1, ?_⟩
  rw [subAssign_antisymm hz hy, subAssign_antisymm hz hx]; linarith

/-- C70 (consequence): adding a non-negative number never decreases, subtracting one never increases. -/
theorem add_nonneg_grows (c : Cfg) (x z : DW) (hx : Full c x) (hz : Full c z) (h : 0 ≤ z.val c) :
    x.val c ≤ (addAssign c x z).val c ∧ (subAssign c x z).val c ≤ x.val c := by
  have z0 := zero_WF c
  have zv : (zero c).val c = 0 := zero_val c
  have zz : (zero c).isZero = true := z0.toWF.isZero_iff.mpr zv
  have e : (addAssign c x (zero c)).val c = x.val c := by rw [addAssign_comm hx z0, addAssign_zero_left zz]
  constructor
  · have := (add_monotone c (zero c) z x z0 hz hx (by rw [zv]; exact h)).2
    rwa [e] at this
  · have := (sub_monotone c (zero c) z x z0 hz hx (by rw [zv]; exact h)).2
    rw [subAssign_val hx z0] at this
    have e2 : (addAssign c x.negate (zero c)).val c = -x.val c := by
      rw [addAssign_comm (negate_full hx) z0, addAssign_zero_left zz, negate_val c hx.toWF]
    rw [e2] at this; linarith

/-- The range of exponents in which a product neither overflows nor underflows. -/
def InRange (c : Cfg) (x z : DW) : Prop := -(c.maxExp : ℤ) < x.exp + z.exp ∧ x.exp + z.exp < c.maxExp

/-- C70 (multiplication; partial: exponents in range). x ≤ y and z ≥ 0 imply x·z ≤ y·z and z·x ≤ z·y. -/
theorem mul_monotone_partial (c : Cfg) (x y z : DW) (hx : Full c x) (hy : Full c y) (hz : Full c z) (hok : MulOk c c.N)
    (hxr : InRange c x z) (hyr : InRange c y z) (hzr : -(c.maxExp : ℤ) < z.exp ∧ z.exp < c.maxExp)
    (hxe : -(c.maxExp : ℤ) < x.exp ∧ x.exp < c.maxExp) (hye : -(c.maxExp : ℤ) < y.exp ∧ y.exp < c.maxExp)
    (h : x.val c ≤ y.val c) (h0 : 0 ≤ z.val c) :
    (mulAssign c x z).val c ≤ (mulAssign c y z).val c ∧ (mulAssign c z x).val c ≤ (mulAssign c z y).val c := by
  cases hzz : z.isZero
  swap
  · rw [(mulAssign_zero hx hz (Or.inr hzz) hok hzr.1 hzr.2).1, (mulAssign_zero hy hz (Or.inr hzz) hok hzr.1 hzr.2).1,
      (mulAssign_zero hz hx (Or.inl hzz) hok hxe.1 hxe.2).1, (mulAssign_zero hz hy (Or.inl hzz) hok hye.1 hye.2).1]
    exact ⟨le_refl _, le_refl _⟩
  have zn : z.neg = false := by
    cases hn : z.neg
    · rfl
    · have a := WF.val_of_neg (c := c) hn
      have := hz.toWF.abs_pos hzz
      linarith
  constructor
  · refine mono_of_abs (c := c) (f := fun u => mulAssign c u z) (P := fun u => InRange c u z) ?_ ?_ ?_ hx hy hxr hyr h
    · intro u v hu hv pu pv uz vz huv
      exact prodOf_mono hu.toWF hv.toWF hz.toWF vz huv (mulAssign_prodOf hu hz uz hzz hok pu.1 pu.2).1
        (mulAssign_prodOf hv hz vz hzz hok pv.1 pv.2).1
    · intro u hu pu uz
      obtain ⟨-, -, q, -⟩ := mulAssign_full hu hz uz hzz hok pu.1 pu.2
      have e := val_sgn c (mulAssign c u z)
      rw [q, zn] at e
      simpa using e
    · intro u hu pu uz
      exact (mulAssign_zero hu hz (Or.inl uz) hok hzr.1 hzr.2).1
  · refine mono_of_abs (c := c) (f := fun u => mulAssign c z u)
      (P := fun u => InRange c u z ∧ -(c.maxExp : ℤ) < u.exp ∧ u.exp < c.maxExp) ?_ ?_ ?_ hx hy ⟨hxr, hxe⟩ ⟨hyr, hye⟩ h
    · intro u v hu hv pu pv uz vz huv
      exact prodOf_mono hu.toWF hv.toWF hz.toWF vz huv
        (mulAssign_prodOf hz hu hzz uz hok (by rw [add_comm]; exact pu.1.1) (by rw [add_comm]; exact pu.1.2)).2
        (mulAssign_prodOf hz hv hzz vz hok (by rw [add_comm]; exact pv.1.1) (by rw [add_comm]; exact pv.1.2)).2
    · intro u hu pu uz
      obtain ⟨-, -, q, -⟩ := mulAssign_full hz hu hzz uz hok (by rw [add_comm]; exact pu.1.1) (by rw [add_comm]; exact pu.1.2)
      have e := val_sgn c (mulAssign c z u)
      rw [q, zn] at e
      simpa using e
    · intro u hu pu uz
      exact (mulAssign_zero hz hu (Or.inr uz) hok pu.2.1 pu.2.2).1

/-- Multiplying by a non-negative number flips with the sign: (−x)·z = −(x·z) = x·(−z), as values, for all x, z. -/
theorem mul_neg_value (c : Cfg) (x z : DW) (hx0 : x.isZero = false) (hz0 : z.isZero = false) :
    (mulAssign c x.negate z).val c = -(mulAssign c x z).val c ∧
    (mulAssign c x z.negate).val c = -(mulAssign c x z).val c := by
  have setv : ∀ (w : DW) (b : Bool), DW.val c { w with neg := !b } = -DW.val c { w with neg := b } := by
    intro w b
    rw [val_sgn c { w with neg := !b }, val_sgn c { w with neg := b }, setNeg_abs c w (!b), setNeg_abs c w b]
    cases b <;> simp
  have hxn : x.negate = { x with neg := !x.neg } := by unfold negate; rw [hx0]; rfl
  have hzn : z.negate = { z with neg := !z.neg } := by unfold negate; rw [hz0]; rfl
  have hx0' : ({ x with neg := !x.neg } : DW).isZero = false := hx0
  have hz0' : ({ z with neg := !z.neg } : DW).isZero = false := hz0
  have hb : ∀ a b : Bool, ((!a) != b) = !(a != b) := by decide
  have hb' : ∀ a b : Bool, (a != (!b)) = !(a != b) := by decide
  have key : ∀ (b : Bool) (w : DW), mulDispatch c (min x.prec z.prec) { x with neg := false, exp := x.exp + z.exp } { z with neg := b } =
      mulDispatch c (min x.prec z.prec) { x with neg := false, exp := x.exp + z.exp } z := fun _ _ => rfl
  rw [hxn, hzn]
  constructor
  · unfold mulAssign
    simp only [hx0, hz0, hx0', Bool.false_eq_true, or_self, if_false, isOneSN_neg, hb]
    exact setv _ _
  · unfold mulAssign
    simp only [hx0, hz0, hz0', Bool.false_eq_true, or_self, if_false, isOneSN_neg, hb']
    rw [setv]
    congr 1
    split
    · rfl
    · split
      · rfl
      · split
        · rfl
        · split <;> rfl

/-- A regular product (neither factor passes for one) in range is truncated. -/
theorem mulAssign_reg {c : Cfg} {x y : DW} (hx : Full c x) (hy : Full c y) (hxz : x.isZero = false)
    (hyz : y.isZero = false) (hok : MulOk c c.N) (h1 : isOneSN c x = false) (h2 : isOneSN c y = false)
    (hlo : -(c.maxExp : ℤ) < x.exp + y.exp) (hhi : x.exp + y.exp < c.maxExp) :
    Full c (mulAssign c x y) ∧ (mulAssign c x y).isZero = false ∧ (mulAssign c x y).neg = (x.neg != y.neg) ∧
    |(mulAssign c x y).val c| ≤ |x.val c| * |y.val c| ∧
      |x.val c| * |y.val c| < |(mulAssign c x y).val c| + (mulAssign c x y).ulp c := by
  obtain ⟨f1, f2, f3, -, -⟩ := mulAssign_full hx hy hxz hyz hok hlo hhi
  refine ⟨f1, f2, f3, ?_⟩
  rcases mulAssign_cases (c := c) hxz hyz with ⟨a, e⟩ | ⟨a, b, e⟩ | ⟨a, b, d, e⟩ | ⟨a, b, h0, d, e⟩ | ⟨a, b, d, f, e⟩
  · rw [h1] at a; simp at a
  · rw [h2] at b; simp at b
  · omega
  · omega
  · rw [e]
    have hp : min x.prec y.prec = c.N := by rw [hx.full, hy.full, Nat.min_self]
    rw [hp]
    obtain ⟨q1, q2, q3, q4, q5, q6, q7⟩ := mulDispatch_val (u := { x with neg := false }) (setNeg_wf hx.toWF false) hy.toWF hxz hyz
      (le_refl _) hok (e := x.exp + y.exp) (dvd_add hx.dvd hy.dvd) rfl
    set r := mulDispatch c c.N { x with neg := false, exp := x.exp + y.exp } y with hr
    change r.absp c c.N ≤ x.absp c c.N * y.absp c c.N at q6
    change x.absp c c.N * y.absp c c.N < r.absp c c.N + 10 ^ r.lexpp c c.N at q7
    rw [absp_N hx.len, absp_N hy.len, absp_N q1.len] at q6 q7
    exact ⟨by rw [setNeg_abs c r (x.neg != y.neg)]; exact q6, by rw [setNeg_abs c r (x.neg != y.neg)]; exact q7⟩

/-- C70 (commutativity of the product; partial: the pairs {±1, ±0.99…9} are excluded, where it fails). For non-zero factors
    of any size – also those whose product overflows or underflows – x·y = y·x. -/
theorem mul_comm_partial (c : Cfg) (x y : DW) (hx : Full c x) (hy : Full c y) (hx0 : x.val c ≠ 0) (hy0 : y.val c ≠ 0)
    (hok : MulOk c c.N) (hE : 0 < c.maxExp)
    (h1 : ¬ (|x.val c| = 1 ∧ |y.val c| = 1 - 10 ^ (-((c.ed : ℤ) * c.N))))
    (h2 : ¬ (|y.val c| = 1 ∧ |x.val c| = 1 - 10 ^ (-((c.ed : ℤ) * c.N)))) :
    (mulAssign c x y).val c = (mulAssign c y x).val c := by
  have hxz := isZero_false_of_val hx.toWF hx0
  have hyz := isZero_false_of_val hy.toWF hy0
  have sw : (y.neg != x.neg) = (x.neg != y.neg) := by cases x.neg <;> cases y.neg <;> rfl
  change ¬ (_ ∧ _ = nearOne c) at h1 h2
  cases ox : isOneSN c x
  · cases oy : isOneSN c y
    · rcases le_or_gt (c.maxExp : ℤ) (x.exp + y.exp) with ha | ha
      · rw [mulAssign_over hxz hyz ox oy hE ha, mulAssign_over hyz hxz oy ox hE (by omega), sw]
      · rcases le_or_gt (x.exp + y.exp) (-(c.maxExp : ℤ)) with hb | hb
        · rw [mulAssign_under hxz hyz ox oy hE hb, mulAssign_under hyz hxz oy ox hE (by omega), sw]
        · obtain ⟨a1, a2, a3, a4, a5⟩ := mulAssign_reg hx hy hxz hyz hok ox oy hb ha
          obtain ⟨b1, b2, b3, b4, b5⟩ := mulAssign_reg hy hx hyz hxz hok oy ox (by omega) (by omega)
          rw [mul_comm] at b4 b5
          have e := same_unique a1.toWF b1.toWF a2 b2 a4 a5 b4 b5
          rw [val_sgn c (mulAssign c x y), val_sgn c (mulAssign c y x), a3, b3, sw, e]
    · rcases mulAssign_cases (c := c) hxz hyz with ⟨a, e⟩ | ⟨a, b, e⟩ | ⟨a, b, -⟩ | ⟨a, b, -⟩ | ⟨a, b, -⟩ <;>
        simp_all
      rcases mulAssign_cases (c := c) hyz hxz with ⟨a, e'⟩ | ⟨a, b, e'⟩ | ⟨a, b, -⟩ | ⟨a, b, -⟩ | ⟨a, b, -⟩ <;>
        simp_all
  · rcases mulAssign_cases (c := c) hxz hyz with ⟨a, e⟩ | ⟨a, b, e⟩ | ⟨a, b, -⟩ | ⟨a, b, -⟩ | ⟨a, b, -⟩
    · cases oy : isOneSN c y
      · rcases mulAssign_cases (c := c) hyz hxz with ⟨a', e'⟩ | ⟨a', b, e'⟩ | ⟨a', b, -⟩ | ⟨a', b, -⟩ | ⟨a', b, -⟩
        · rw [oy] at a'; simp at a'
        · rw [e, e', sw]
        all_goals rw [ox] at b; simp at b
      · rcases mulAssign_cases (c := c) hyz hxz with ⟨a', e'⟩ | ⟨a', b, e'⟩ | ⟨a', b, -⟩ | ⟨a', b, -⟩ | ⟨a', b, -⟩
        · have he : |x.val c| = |y.val c| := by
            rcases isOneSN_spec hx.toWF ox with ⟨p, -⟩ | ⟨p, -⟩ <;> rcases isOneSN_spec hy.toWF oy with ⟨q, -⟩ | ⟨q, -⟩
            · rw [p, q]
            · exact absurd ⟨p, q⟩ h1
            · exact absurd ⟨q, p⟩ h2
            · rw [p, q]
          rw [e, e', val_sgn c { y with neg := _ }, val_sgn c { x with neg := _ }, setNeg_abs c y (x.neg != y.neg), setNeg_abs c x (y.neg != x.neg), he]
          simp only [sw]
        all_goals rw [oy] at a'; simp at a'
    all_goals rw [ox] at a; simp at a

/-- Non-vacuity of the commutativity theorem: 12.345… · 0.98… with 8-bit limbs. -/
example : Full exC exX ∧ Full exC exY ∧ MulOk exC exC.N ∧ mulAssign exC exX exY = mulAssign exC exY exX ∧ exX ≠ exY := by
  decide +kernel

/-- C70 is false at the excluded pairs and at zero times extremes: 1·0.99…9 = 0.99…9 but 0.99…9·1 = 1; 0·max() = max()
    but max()·0 = 0; hence multiplication by the zero (a non-negative factor) reverses an order: max() ≥ min() > 0 but with
    0 on the left 0·1 = 0 < 0·min() = min(). -/
theorem mul_comm_false :
    (mulAssign exC (one exC) { data := [99, 99, 99, 99, 99], exp := -2, neg := false, prec := 5 } = { data := [99, 99, 99, 99, 99], exp := -2, neg := false, prec := 5 }) ∧
    mulAssign exC { data := [99, 99, 99, 99, 99], exp := -2, neg := false, prec := 5 } (one exC) = one exC ∧
    mulAssign exC (zero exC) (maxVal exC) = maxVal exC ∧ mulAssign exC (maxVal exC) (zero exC) = zero exC ∧
    DW.lt (minVal exC) (one exC) = true ∧
    DW.gt (mulAssign exC (zero exC) (minVal exC)) (mulAssign exC (zero exC) (one exC)) = true := by decide +kernel

/-- Without the range condition the order is lost: 9.9·10^63 < 10^64 with 8-bit limbs, but times 99 the smaller factor gives
    9.8·10^65 (in range, above max()) and the larger one saturates to max() = 9·10^64. -/
theorem mul_monotone_false :
    DW.lt { data := [99, 0, 0, 0, 0], exp := 62, neg := false, prec := 5 } { data := [1, 0, 0, 0, 0], exp := 64, neg := false, prec := 5 } = true ∧
    mulAssign exC { data := [99, 0, 0, 0, 0], exp := 62, neg := false, prec := 5 } { data := [99, 0, 0, 0, 0], exp := 0, neg := false, prec := 5 }
      = { data := [98, 1, 0, 0, 0], exp := 64, neg := false, prec := 5 } ∧
    mulAssign exC { data := [1, 0, 0, 0, 0], exp := 64, neg := false, prec := 5 } { data := [99, 0, 0, 0, 0], exp := 0, neg := false, prec := 5 } = maxVal exC ∧
    DW.gt { data := [98, 1, 0, 0, 0], exp := 64, neg := false, prec := 5 } (maxVal exC) = true := by decide +kernel

/-- Non-vacuity: z = 1/2, y ≤ x, sums and products ordered, and the opposite-sign branch with different units. -/
example : Full exC exX ∧ Full exC exY ∧ Full exC (half exC) ∧ MulOk exC exC.N ∧
    (-(exC.maxExp : ℤ) < exX.exp + (half exC).exp ∧ exX.exp + (half exC).exp < exC.maxExp) ∧
    (-(exC.maxExp : ℤ) < exY.exp + (half exC).exp ∧ exY.exp + (half exC).exp < exC.maxExp) ∧
    DW.le exY exX = true ∧ DW.le (addAssign exC exY (one exC)) (addAssign exC exX (one exC)) = true ∧
    DW.le (mulAssign exC exY (half exC)) (mulAssign exC exX (half exC)) = true ∧
    DW.lt { data := [99, 99, 99, 99, 99], exp := -2, neg := true, prec := 5 } { data := [1, 0, 0, 0, 0], exp := -4, neg := true, prec := 5 } = true ∧
    DW.lt (addAssign exC { data := [99, 99, 99, 99, 99], exp := -2, neg := true, prec := 5 } (one exC))
      (addAssign exC { data := [1, 0, 0, 0, 0], exp := -4, neg := true, prec := 5 } (one exC)) = true := by decide +kernel

end WD
