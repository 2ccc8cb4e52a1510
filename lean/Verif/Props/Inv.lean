import Verif.Proofs.Inv
import Verif.Props.Div
/-
  C26: reciprocal and division. The floating-point start value is any function `est`; the theorems ask that its result be a
  positive well-formed number with relative error at most 4.3·10^(-fdig), where `fdig` is
  `numeric_limits<internal_float_type>::digits10` (6 for float, 15 for double, 18 for an 80-bit long double): 36 and more
  units in the last place of the floating-point type.
-/
namespace WD
open DW

/-- The start value `s` of the iteration for the reciprocal of q > 0 is good enough. -/
structure StartOk (c : Cfg) (fdig : ℕ) (s : DW) (q : ℚ) : Prop where
  wf : WF c s
  pos : 0 < s.val c
  err : |s.val c * q - 1| ≤ 43 / 10 / 10 ^ fdig

/-- `x` with its sign removed. -/
def unsigned (x : DW) : DW := { x with neg := false }

theorem calcInv_spec {c : Cfg} {est : DW → DW} {fdig : ℕ} {x : DW} (hx : Full c x) (hx0 : x.isZero = false) (hok : MulOkAll c)
    (hf : 6 ≤ fdig) (hm : 2 * (c.ed : ℤ) < c.maxExp) (hlo : -(c.maxExp : ℤ) < x.exp) (hhi : x.exp + 3 * c.ed < c.maxExp)
    (hs : StartOk c fdig (est (unsigned x)) |x.val c|) :
    let r := calcInv c est fdig x
    Full c r ∧ r.isZero = false ∧ r.neg = x.neg ∧ |(|r.val c| * |x.val c|) - 1| ≤ 44 / 10 * eta c c.N := by
  intro r
  have hr : r = calcInv c est fdig x := rfl
  have hed : 2 ≤ c.ed := by unfold Cfg.ed; cases c.L <;> decide
  have h3 := c.three_le_N
  have hη := eta_pos c c.N
  have hη4 := eta_N_le c
  -- ten to the minus all digits
  have hall : (10 : ℚ) ^ (-(c.N * c.ed : ℕ) : ℤ) ≤ eta c c.N / 100 := by
    calc (10 : ℚ) ^ (-(c.N * c.ed : ℕ) : ℤ) = eta c c.N * 10 ^ (-(c.ed : ℤ)) := by
          unfold eta; rw [← zpow_add₀ (by norm_num)]; congr 1; push_cast; ring
      _ ≤ eta c c.N * 10 ^ (-2 : ℤ) :=
          mul_le_mul_of_nonneg_left (zpow_le_zpow_right₀ (by norm_num) (by omega)) hη.le
      _ = _ := by norm_num; ring
  unfold calcInv at hr
  rw [if_neg (by rw [hx0]; simp)] at hr
  by_cases h1 : isOneSN c x = true
  · rw [if_pos h1] at hr
    rw [hr]
    refine ⟨hx, hx0, rfl, ?_⟩
    have hall' : (10 : ℚ) ^ (-((c.ed : ℤ) * c.N)) ≤ eta c c.N / 100 := by
      rw [show -((c.ed : ℤ) * c.N) = -((c.N * c.ed : ℕ) : ℤ) by push_cast; ring]; exact hall
    rcases isOneSN_spec hx.toWF h1 with ⟨h, -⟩ | ⟨h, -⟩
    · rw [h]; norm_num; positivity
    · rw [h]
      obtain ⟨n1, n2⟩ := nearOne_lt c
      rw [abs_le]
      have hn : nearOne c = 1 - 10 ^ (-((c.ed : ℤ) * c.N)) := rfl
      constructor <;> nlinarith
  · rw [if_neg h1] at hr
    have hxp : Posi c (unsigned x) := ⟨⟨hx.len, hx.valid, hx.dvd, hx.prec2, hx.precN, hx.lead⟩, hx0, rfl⟩
    have hsz : (est (unsigned x)).isZero = false := isZero_false_of_val hs.wf hs.pos.ne'
    have hsn : (est (unsigned x)).neg = false := by
      rcases Bool.dichotomy (est (unsigned x)).neg with h | h
      · exact h
      · have := WF.val_of_neg (c := c) h
        have h2 := hs.pos
        rw [this] at h2
        have := abs_nonneg ((est (unsigned x)).val c)
        linarith
    have hsp : Posi c (est (unsigned x)) := ⟨hs.wf, hsz, hsn⟩
    have hxv : |(unsigned x).val c| = |x.val c| := setNeg_abs c x false
    have herr := hs.err
    have hf' : (43 / 10 / 10 ^ fdig : ℚ) = 43 / 100 * (10 : ℚ) ^ (-((fdig - 1 : ℕ) : ℤ)) := by
      obtain ⟨k, rfl⟩ : ∃ k, fdig = k + 1 := ⟨fdig - 1, by omega⟩
      rw [Nat.add_sub_cancel, zpow_neg, zpow_natCast, pow_succ]
      field_simp; norm_num
    rw [hf', ← abs_of_pos hs.pos, ← hxv] at herr
    obtain ⟨l1, l2⟩ := invLoop_spec hok hm (x.prec * c.ed) (x.prec * c.ed) (fdig - 1) (unsigned x) (est (unsigned x)) (by omega)
      (by omega) hxp hsp hlo hhi (by show x.exp < _; omega) (by linarith)
    change r = { invLoop c (x.prec * c.ed) (fdig - 1) (est (unsigned x)) (unsigned x) with neg := x.neg, prec := x.prec } at hr
    set z := invLoop c (x.prec * c.ed) (fdig - 1) (est (unsigned x)) (unsigned x) with hz
    have hrv : |r.val c| = |z.val c| := by rw [hr]; exact setNeg_abs c z x.neg
    refine ⟨?_, ?_, ?_, ?_⟩
    · rw [hr]; exact ⟨⟨l1.len, l1.valid, l1.dvd, hx.prec2, hx.precN, l1.lead⟩, hx.full⟩
    · rw [hr]; exact l1.nz
    · rw [hr]
    · rw [hrv, ← hxv]
      rw [hx.full] at l2
      refine le_trans l2 ?_
      linarith

theorem eta_N_digits (c : Cfg) : eta c c.N ≤ 1 / 10 ^ (c.digits10 + 2 * c.ed) := by
  rw [one_div, ← zpow_natCast, ← zpow_neg]
  unfold eta
  apply zpow_le_zpow_right₀ (by norm_num)
  have h2 := c.digits_le
  have h3 := c.three_le_N
  have : ((c.digits10 : ℤ)) + 2 * c.ed ≤ c.ed * ((c.N : ℤ) - 1) := by
    have := (Int.ofNat_le.mpr h2)
    push_cast [Nat.cast_sub (show 1 ≤ c.N by omega)] at this
    exact this
  push_cast
  linarith

/-- C26, reciprocal: for every non-zero x inside the exponent range, if the floating-point start value has relative error at
    most 4.3·10^(-fdig), the Newton iteration ends with a well-formed number of the sign of x whose product with x differs
    from 1 by less than 5·10^(-(digits10+2·ed)) (`ed` the digits per limb): two whole limbs more than advertised.
    `MulOkAll`: below 1793 limbs (no FFT), and at most 42 limbs for 16-bit limbs (see `Verif/Props/Limb.lean`). -/
theorem inv_accuracy (c : Cfg) (est : DW → DW) (fdig : ℕ) (x : DW) (hx : Full c x) (hx0 : x.val c ≠ 0) (hok : MulOkAll c)
    (hf : 6 ≤ fdig) (hm : 2 * (c.ed : ℤ) < c.maxExp) (hlo : -(c.maxExp : ℤ) < x.exp) (hhi : x.exp + 3 * c.ed < c.maxExp)
    (hs : StartOk c fdig (est (unsigned x)) |x.val c|) :
    let r := calcInv c est fdig x
    Full c r ∧ (r.val c < 0 ↔ x.val c < 0) ∧ |r.val c * x.val c - 1| < 5 / 10 ^ (c.digits10 + 2 * c.ed) := by
  intro r
  have hxz := isZero_false_of_val hx.toWF hx0
  obtain ⟨q1, q2, q3, q4⟩ := calcInv_spec (est := est) hx hxz hok hf hm hlo hhi hs
  change Full c r at q1; change r.isZero = false at q2; change r.neg = x.neg at q3
  have hrp := q1.toWF.abs_pos q2
  have hxp := hx.toWF.abs_pos hxz
  have hη := eta_N_digits c
  have hη0 := eta_pos c c.N
  have hfin : 44 / 10 * eta c c.N < 5 / 10 ^ (c.digits10 + 2 * c.ed) := by
    have : (5 : ℚ) / 10 ^ (c.digits10 + 2 * c.ed) = 5 * (1 / 10 ^ (c.digits10 + 2 * c.ed)) := by ring
    rw [this]; linarith
  rcases Bool.dichotomy x.neg with h | h
  · have e1 := WF.val_of_pos (c := c) (x := r) (q3.trans h)
    have e2 := WF.val_of_pos (c := c) (x := x) h
    refine ⟨q1, ?_, ?_⟩
    · rw [e1, e2]; constructor <;> intro _ <;> linarith
    · rw [e1, e2]; exact lt_of_le_of_lt q4 hfin
  · have e1 := WF.val_of_neg (c := c) (x := r) (q3.trans h)
    have e2 := WF.val_of_neg (c := c) (x := x) h
    refine ⟨q1, ?_, ?_⟩
    · rw [e1, e2]; constructor <;> intro _ <;> linarith
    · rw [e1, e2, neg_mul_neg]; exact lt_of_le_of_lt q4 hfin

/-- C26, quotient: for non-zero u and v inside the exponent range and a start value as above, u/v is well formed and its
    relative error is below 6·10^(-(digits10+2·ed)); in particular it is accurate to digits10 digits. -/
theorem div_accuracy (c : Cfg) (est : DW → DW) (fdig : ℕ) (u v : DW) (hu : Full c u) (hv : Full c v) (hu0 : u.val c ≠ 0)
    (hv0 : v.val c ≠ 0) (hok : MulOkAll c)
    (hf : 6 ≤ fdig) (hm : 2 * (c.ed : ℤ) < c.maxExp) (hlo : -(c.maxExp : ℤ) < v.exp) (hhi : v.exp + 3 * c.ed < c.maxExp)
    (hlo' : -(c.maxExp : ℤ) < u.exp - v.exp - 2 * c.ed) (hhi' : u.exp - v.exp < c.maxExp)
    (hs : StartOk c fdig (est (unsigned v)) |v.val c|) :
    let r := divAssign c est fdig u v
    Full c r ∧ r.val c ≠ 0 ∧ (r.val c < 0 ↔ u.val c / v.val c < 0) ∧
    |r.val c - u.val c / v.val c| < |u.val c / v.val c| * (6 / 10 ^ (c.digits10 + 2 * c.ed)) := by
  intro r
  have huz := isZero_false_of_val hu.toWF hu0
  have hvz := isZero_false_of_val hv.toWF hv0
  have hr : r = divAssign c est fdig u v := rfl
  have hq0 : u.val c / v.val c ≠ 0 := div_ne_zero hu0 hv0
  have hqp : 0 < |u.val c / v.val c| := abs_pos.mpr hq0
  have heps : (0 : ℚ) < 6 / 10 ^ (c.digits10 + 2 * c.ed) := by positivity
  unfold divAssign at hr
  by_cases hcond : u.exp = v.exp ∧ compareRanges u.data v.data = 0
  · rw [if_pos hcond] at hr
    have hdata : limbsVal c.B u.data = limbsVal c.B v.data := by
      have := compareRanges_spec c.B u.data v.data (by rw [hu.len, hv.len]) hu.valid hv.valid
      rw [hcond.2] at this
      unfold cmp3 at this
      split_ifs at this with h1 h2
      · exact h2
      · omega
    have habs : |u.val c| = |v.val c| := by
      rw [abs_val, abs_val]; unfold mant lexp; rw [hdata, hcond.1]
    have hquot : u.val c / v.val c = if (u.neg != v.neg) = true then -1 else 1 := by
      rcases Bool.dichotomy u.neg with h | h <;> rcases Bool.dichotomy v.neg with h' | h' <;> rw [h, h']
      · have e1 := WF.val_of_pos (c := c) (x := u) h; have e2 := WF.val_of_pos (c := c) (x := v) h'
        have : u.val c = v.val c := by rw [e1, e2, habs]
        rw [this]; simp [hv0]
      · have e1 := WF.val_of_pos (c := c) (x := u) h; have e2 := WF.val_of_neg (c := c) (x := v) h'
        have : u.val c = -v.val c := by rw [e1, e2, habs]; ring
        rw [this]; simp [neg_div, hv0]
      · have e1 := WF.val_of_neg (c := c) (x := u) h; have e2 := WF.val_of_pos (c := c) (x := v) h'
        have : u.val c = -v.val c := by rw [e1, e2, habs]
        rw [this]; simp [neg_div, hv0]
      · have e1 := WF.val_of_neg (c := c) (x := u) h; have e2 := WF.val_of_neg (c := c) (x := v) h'
        have : u.val c = v.val c := by rw [e1, e2, habs]
        rw [this]; simp [hv0]
    have hrv : r.val c = u.val c / v.val c := by
      rw [hquot, hr]; split
      · rw [negate_val c (one_full c).toWF, one_val]
      · exact one_val c
    refine ⟨?_, by rw [hrv]; exact hq0, by rw [hrv], by rw [hrv, sub_self, abs_zero]; exact mul_pos hqp heps⟩
    rw [hr]; split
    · exact negate_full (one_full c)
    · exact one_full c
  · rw [if_neg hcond] at hr
    obtain ⟨q1, q2, q3, q4⟩ := calcInv_spec (est := est) hv hvz hok hf hm hlo hhi hs
    obtain ⟨-, -, q5⟩ := inv_accuracy c est fdig v hv hv0 hok hf hm hlo hhi hs
    set w := calcInv c est fdig v with hw
    have hη4 := eta_N_le c
    have hη := eta_N_digits c
    have hη0 := eta_pos c c.N
    obtain ⟨k1, k2⟩ := abs_le.mp q4
    have hed : 2 ≤ c.ed := by unfold Cfg.ed; cases c.L <;> decide
    -- exponent of the reciprocal
    have e1 := q1.toWF.abs_ge q2
    have e2 := q1.toWF.abs_lt
    have e3 := hv.toWF.abs_ge hvz
    have e4 := hv.toWF.abs_lt
    have ex1 : w.exp + v.exp ≤ 0 := by
      by_contra hc
      have : (10 : ℚ) ^ (1 : ℤ) ≤ 10 ^ (w.exp + v.exp) := zpow_le_zpow_right₀ (by norm_num) (by omega)
      rw [zpow_add₀ (by norm_num)] at this
      have h := mul_le_mul e1 e3 (p10_pos _).le (abs_nonneg _)
      norm_num at this; linarith
    have ex2 : 0 ≤ w.exp + v.exp + 2 * c.ed := by
      by_contra hc
      have : (10 : ℚ) ^ (w.exp + c.ed + (v.exp + c.ed)) ≤ 10 ^ (-1 : ℤ) := zpow_le_zpow_right₀ (by norm_num) (by omega)
      rw [zpow_add₀ (by norm_num)] at this
      have h := mul_le_mul e2.le e4.le (abs_nonneg _) (p10_pos _).le
      norm_num at this; linarith
    have hw0 : w.val c ≠ 0 := fun h => by have := q1.toWF.isZero_iff.mpr h; rw [q2] at this; exact absurd this (by simp)
    have hokN := hok.ok (p := c.N) (by have := c.three_le_N; omega) (le_refl _)
    obtain ⟨m1, m2, m3, m4⟩ := mul_error c u w hu q1 hu0 hw0 hokN (by omega) (by omega)
    have m5 := mul_relative_error c u w hu q1 hu0 hw0 hokN (by omega) (by omega)
    rw [← hr] at m1 m2 m3 m4 m5
    -- sizes
    obtain ⟨ε, hε⟩ : ∃ ε : ℚ, ε = 1 / 10 ^ (c.digits10 + 2 * c.ed) := ⟨_, rfl⟩
    have hε0 : 0 < ε := by rw [hε]; positivity
    have hε1 : ε ≤ 1 / 10000 := by
      rw [hε, div_le_div_iff_of_pos_left (by norm_num) (by positivity) (by norm_num)]
      calc (10000 : ℚ) = 10 ^ 4 := by norm_num
        _ ≤ _ := pow_le_pow_right₀ (by norm_num) (by omega)
    have e6 : (6 : ℚ) / 10 ^ (c.digits10 + 2 * c.ed) = 6 * ε := by rw [hε]; ring
    have e7 : |r.val c| / 10 ^ (c.digits10 + 2 * c.ed) = |r.val c| * ε := by rw [hε]; ring
    rw [← hε] at hη
    rw [e7] at m5
    rw [e6]
    -- u*w = (u/v)(1+θ), |θ| ≤ 4.4 ε
    set Q := u.val c / v.val c with hQ
    have hθ : |w.val c * v.val c - 1| ≤ 44 / 10 * ε := by
      have hsg : w.val c * v.val c = |w.val c| * |v.val c| := by
        rcases Bool.dichotomy v.neg with h | h
        · rw [← WF.val_of_pos (c := c) (x := w) (q3.trans h), ← WF.val_of_pos (c := c) (x := v) h]
        · have := WF.val_of_neg (c := c) (x := w) (q3.trans h)
          have h2 := WF.val_of_neg (c := c) (x := v) h
          calc w.val c * v.val c = (-|w.val c|) * (-|v.val c|) := by rw [← this, ← h2]
            _ = _ := by ring
      rw [hsg]; linarith
    have huw : u.val c * w.val c - Q = Q * (w.val c * v.val c - 1) := by
      rw [hQ]; field_simp
    have hd1 : |u.val c * w.val c - Q| ≤ |Q| * (44 / 10 * ε) := by
      rw [huw, abs_mul]; exact mul_le_mul_of_nonneg_left hθ (abs_nonneg _)
    have hrQ : |r.val c - Q| ≤ |r.val c| * ε + |Q| * (44 / 10 * ε) := by
      calc |r.val c - Q| = |(r.val c - u.val c * w.val c) + (u.val c * w.val c - Q)| := by congr 1; ring
        _ ≤ _ := abs_add_le _ _
        _ ≤ _ := add_le_add m5.le hd1
    have hrle : |r.val c| ≤ |Q| * (101 / 100) := by
      have h1 : |r.val c| - |Q| ≤ |r.val c - Q| := abs_sub_abs_le_abs_sub _ _
      have h2 : |r.val c| * ε ≤ |r.val c| * (1 / 10000) := mul_le_mul_of_nonneg_left hε1 (abs_nonneg _)
      have h3 : |Q| * (44 / 10 * ε) ≤ |Q| * (44 / 100000) := mul_le_mul_of_nonneg_left (by linarith) (abs_nonneg _)
      linarith
    have hfin : |r.val c - Q| < |Q| * (6 * ε) := by
      have h1 : |r.val c| * ε ≤ |Q| * (101 / 100) * ε := mul_le_mul_of_nonneg_right hrle hε0.le
      have h2 : 0 < |Q| * ε := mul_pos hqp hε0
      linarith
    refine ⟨m3, m4, ?_, hfin⟩
    have hlt : |r.val c - Q| < |Q| := by
      have : |Q| * (6 * ε) ≤ |Q| * 1 := mul_le_mul_of_nonneg_left (by linarith) (abs_nonneg _)
      linarith
    rcases lt_or_gt_of_ne hq0 with h | h
    · rw [abs_of_neg h] at hlt
      have := (abs_lt.mp hlt).2
      exact ⟨fun _ => h, fun _ => by linarith⟩
    · rw [abs_of_pos h] at hlt
      have := (abs_lt.mp hlt).1
      exact ⟨fun h' => by linarith, fun h' => by linarith⟩

/-- A start value for 1/12.345678 with six good digits: 0.081. -/
def exStart : DW := { data := [8, 10, 0, 0, 0], exp := -2, neg := false, prec := 5 }

theorem exInv : calcInv exC (fun _ => exStart) 6 exX = { data := [8, 10, 0, 0, 72], exp := -2, neg := false, prec := 5 } := by
  have e : invLoop exC (exX.prec * exC.ed) (6 - 1) exStart (unsigned exX) = (invStep exC 5 exStart (unsigned exX)).1 := by
    rw [invLoop, dif_pos (by decide), invLoop, dif_neg (by decide)]
  unfold calcInv
  rw [if_neg (by decide), if_neg (by decide)]
  change ({ invLoop exC (exX.prec * exC.ed) (6 - 1) exStart (unsigned exX) with neg := exX.neg, prec := exX.prec } : DW) = _
  rw [e]
  decide +kernel

/-- 12.345678 (8-bit limbs) with the start value 0.081 meets the hypotheses; the result is 0.0810000072 (exact: 0.08100000664…). -/
example : StartOk exC 6 exStart |exX.val exC| ∧ MulOkAll exC ∧ Full exC exX ∧ 2 * (exC.ed : ℤ) < exC.maxExp ∧
    calcInv exC (fun _ => exStart) 6 exX = { data := [8, 10, 0, 0, 72], exp := -2, neg := false, prec := 5 } := by
  have h1 : exC.N = 5 := by decide
  have h2 : exC.ed = 2 := by decide
  have h3 : exC.B = 100 := by decide
  refine ⟨⟨by decide, ?_, ?_⟩, by decide, by decide, by decide, exInv⟩
  · simp only [DW.val, exStart, limbsVal, h1, h2, h3]; norm_num
  · simp only [DW.val, exStart, exX, limbsVal, h1, h2, h3]; norm_num [abs_of_pos, abs_of_neg]

/-- 1 / 12.345678 through `operator/=`. -/
example : divAssign exC (fun _ => exStart) 6 (one exC) exX = { data := [8, 10, 0, 0, 72], exp := -2, neg := false, prec := 5 } := by
  unfold divAssign
  rw [if_neg (by decide), exInv]
  decide +kernel

end WD
