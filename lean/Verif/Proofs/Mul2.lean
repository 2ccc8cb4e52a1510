import Verif.Proofs.Mul
import Verif.Proofs.Int

namespace WD
open DW

/-- The largest well-formed number below one: all limbs B-1. -/
def nearOne (c : Cfg) : ℚ := 1 - 10 ^ (-((c.ed : ℤ) * c.N))

theorem limbsVal_nines {B : Nat} (hB : 0 < B) {l : List Nat} (h : ∀ d ∈ l, d = B - 1) : limbsVal B l + 1 = B ^ l.length := by
  induction l with
  | nil => simp
  | cons x xs ih =>
    rw [limbsVal_cons, h x (List.mem_cons_self ..)]
    have := ih fun d hd => h d (List.mem_cons_of_mem _ hd)
    rw [List.length_cons, pow_succ]
    have h1 : (B - 1) * B ^ xs.length + B ^ xs.length = B ^ xs.length * B := by
      obtain ⟨b, rfl⟩ : ∃ b, B = b + 1 := ⟨B - 1, by omega⟩
      simp only [Nat.add_sub_cancel]; ring
    omega

theorem isOneSN_spec {c : Cfg} {x : DW} (hx : WF c x) (h : isOneSN c x = true) :
    (|x.val c| = 1 ∧ x.exp = 0) ∨ (|x.val c| = nearOne c ∧ x.exp = -(c.ed : ℤ)) := by
  have h3 := c.three_le_N
  obtain ⟨y, ys, hd⟩ : ∃ y ys, x.data = y :: ys := by
    cases hh : x.data with
    | nil => have := hx.len; rw [hh] at this; simp at this; omega
    | cons y ys => exact ⟨y, ys, rfl⟩
  have hyl : ys.length = c.N - 1 := by have := hx.len; rw [hd] at this; simp at this; omega
  unfold isOneSN d0 at h
  rw [hd] at h
  simp only [List.headD_cons, List.tail_cons, Bool.and_eq_true, beq_iff_eq] at h
  split at h
  · next h1 =>
    left
    refine ⟨?_, h1.2⟩
    have hz := all_zero_iff.mp h
    have hm : x.mant c = c.B ^ (c.N - 1) := by
      unfold mant; rw [hd, limbsVal_cons, limbsVal_eq_zero hz, h1.1, hyl]; simp
    rw [abs_val, hm]
    have h2 := c.p10_mul_B (x.lexp c) (c.N - 1)
    have h4 : x.lexp c + (c.ed : ℤ) * ((c.N - 1 : Nat) : ℤ) = 0 := by
      have : ((c.N - 1 : Nat) : ℤ) = (c.N : ℤ) - 1 := by omega
      rw [this]; unfold lexp; rw [h1.2]; ring
    rw [h4, zpow_zero] at h2
    push_cast; rw [mul_comm]; exact h2
  · split at h
    · next h1 =>
      right
      refine ⟨?_, h1.2⟩
      have hn : ∀ d ∈ x.data, d = c.B - 1 := by
        intro d hd'; rw [hd] at hd'
        rcases List.mem_cons.mp hd' with rfl | h'
        · exact h1.1
        · have := List.all_eq_true.mp h d h'; simpa using this
      have hm := limbsVal_nines c.B_pos hn
      rw [hx.len] at hm
      change x.mant c + 1 = c.B ^ c.N at hm
      have hm' : (x.mant c : ℚ) = (c.B : ℚ) ^ c.N - 1 := by
        have : ((x.mant c + 1 : Nat) : ℚ) = ((c.B ^ c.N : Nat) : ℚ) := by rw [hm]
        push_cast at this; linarith
      have hl : x.lexp c = -((c.ed : ℤ) * c.N) := by unfold lexp; rw [h1.2]; ring
      have h2 := c.p10_mul_B (x.lexp c) c.N
      rw [abs_val, hm', hl]
      rw [hl] at h2
      rw [sub_mul, mul_comm ((c.B : ℚ) ^ c.N), h2]
      unfold nearOne
      rw [show -((c.ed : ℤ) * c.N) + (c.ed : ℤ) * c.N = 0 by ring, zpow_zero, one_mul]
    · simp at h

theorem nearOne_err {c : Cfg} {y : DW} (hy : WF c y) :
    |y.val c| - nearOne c * |y.val c| < y.ulp c := by
  have h := hy.abs_lt
  have hp := p10_pos (-((c.ed : ℤ) * c.N))
  have : |y.val c| - nearOne c * |y.val c| = |y.val c| * 10 ^ (-((c.ed : ℤ) * c.N)) := by unfold nearOne; ring
  rw [this]
  calc _ < (10 : ℚ) ^ (y.exp + c.ed) * 10 ^ (-((c.ed : ℤ) * c.N)) := mul_lt_mul_of_pos_right h hp
    _ = y.ulp c := by
      rw [← zpow_add₀ (by norm_num), ulp_eq]; congr 1; unfold lexp; ring

theorem nearOne_lt (c : Cfg) : nearOne c < 1 ∧ 0 < nearOne c := by
  unfold nearOne
  have h := p10_pos (-((c.ed : ℤ) * c.N))
  refine ⟨by linarith, ?_⟩
  have : (10 : ℚ) ^ (-((c.ed : ℤ) * c.N)) < 10 ^ (0:ℤ) := by
    refine zpow_lt_zpow_right₀ (by norm_num) ?_
    have h1 := c.ed_pos; have h2 := c.three_le_N
    have : (0:ℤ) < (c.ed : ℤ) * c.N := by positivity
    omega
  rw [zpow_zero] at this; linarith

theorem setNeg_wf {c : Cfg} {x : DW} (h : WF c x) (b : Bool) : WF c { x with neg := b } :=
  ⟨h.len, h.valid, h.dvd, h.prec2, h.precN, h.lead⟩
theorem setNeg_full {c : Cfg} {x : DW} (h : Full c x) (b : Bool) : Full c { x with neg := b } :=
  ⟨setNeg_wf h.toWF b, h.full⟩
theorem setNeg_abs (c : Cfg) (x : DW) (b : Bool) : |DW.val c { x with neg := b }| = |x.val c| := by
  rw [abs_val, abs_val]; rfl

theorem isOneSN_neg (c : Cfg) (x : DW) (b : Bool) : isOneSN c { x with neg := b } = isOneSN c x := rfl

theorem maxVal_full (c : Cfg) (hE : (c.ed : ℤ) ∣ c.maxExp) : Full c (maxVal c) :=
  fromLst_single_full (by unfold Cfg.B; cases c.L <;> decide) hE
theorem minVal_full (c : Cfg) (hE : (c.ed : ℤ) ∣ c.maxExp) : Full c (minVal c) :=
  fromLst_single_full c.one_lt_B (dvd_neg.mpr hE)
theorem maxVal_val (c : Cfg) : (maxVal c).val c = 9 * 10 ^ c.maxExp := by
  rw [maxVal, fromLst_single_val]; simp
theorem minVal_val (c : Cfg) : (minVal c).val c = 10 ^ (-(c.maxExp : ℤ)) := by
  rw [minVal, fromLst_single_val]; simp

/-- The complete case analysis of `operator*=` for non-zero operands, at any precision. -/
theorem mulAssign_cases {c : Cfg} {x y : DW} (hxz : x.isZero = false) (hyz : y.isZero = false) :
    (isOneSN c x = true ∧ mulAssign c x y = { y with neg := (x.neg != y.neg) }) ∨
    (isOneSN c x = false ∧ isOneSN c y = true ∧ mulAssign c x y = { x with neg := (x.neg != y.neg) }) ∨
    (isOneSN c x = false ∧ isOneSN c y = false ∧ (c.maxExp : ℤ) ≤ x.exp + y.exp ∧
      mulAssign c x y = { maxVal c with neg := (x.neg != y.neg) }) ∨
    (isOneSN c x = false ∧ isOneSN c y = false ∧ x.exp + y.exp < 0 ∧ x.exp + y.exp ≤ -(c.maxExp : ℤ) ∧
      mulAssign c x y = { minVal c with neg := (x.neg != y.neg) }) ∨
    (isOneSN c x = false ∧ isOneSN c y = false ∧ -(c.maxExp : ℤ) < x.exp + y.exp ∧ x.exp + y.exp < c.maxExp ∧
      mulAssign c x y = { mulDispatch c (min x.prec y.prec) { x with neg := false, exp := x.exp + y.exp } y with
        neg := (x.neg != y.neg) }) := by
  unfold mulAssign
  simp only [hxz, hyz, Bool.false_eq_true, or_self, if_false, isOneSN_neg]
  cases h1 : isOneSN c x
  · cases h2 : isOneSN c y
    · by_cases h3 : 0 ≤ x.exp + y.exp ∧ x.exp + y.exp ≥ (c.maxExp : ℤ)
      · refine Or.inr (Or.inr (Or.inl ⟨rfl, rfl, h3.2, ?_⟩)); simp [h3]
      · by_cases h4 : x.exp + y.exp < 0 ∧ -(x.exp + y.exp) ≥ (c.maxExp : ℤ)
        · refine Or.inr (Or.inr (Or.inr (Or.inl ⟨rfl, rfl, h4.1, by omega, ?_⟩)))
          simp only [h3, h4, Bool.false_eq_true, if_false, and_self, if_true]
        · refine Or.inr (Or.inr (Or.inr (Or.inr ⟨rfl, rfl, by omega, by omega, ?_⟩)))
          simp only [h3, h4, Bool.false_eq_true, if_false]
    · exact Or.inr (Or.inl ⟨rfl, rfl, rfl⟩)
  · exact Or.inl ⟨rfl, rfl⟩

theorem mulAssign_full {c : Cfg} {x y : DW} (hx : Full c x) (hy : Full c y) (hxz : x.isZero = false)
    (hyz : y.isZero = false) (hok : MulOk c c.N)
    (hlo : -(c.maxExp : ℤ) < x.exp + y.exp) (hhi : x.exp + y.exp < c.maxExp) :
    Full c (mulAssign c x y) ∧ (mulAssign c x y).isZero = false ∧ (mulAssign c x y).neg = (x.neg != y.neg) ∧
    (x.exp + y.exp ≤ (mulAssign c x y).exp ∧ (mulAssign c x y).exp ≤ x.exp + y.exp + c.ed) ∧
    ((|(mulAssign c x y).val c| ≤ |x.val c| * |y.val c| ∧
      |x.val c| * |y.val c| < |(mulAssign c x y).val c| + (mulAssign c x y).ulp c) ∨
     ((|x.val c| = nearOne c ∧ |(mulAssign c x y).val c| = |y.val c| ∨
       |y.val c| = nearOne c ∧ |(mulAssign c x y).val c| = |x.val c|) ∧
      |x.val c| * |y.val c| ≤ |(mulAssign c x y).val c| ∧
      |(mulAssign c x y).val c| < |x.val c| * |y.val c| + (mulAssign c x y).ulp c)) := by
  have hn := nearOne_lt c
  have hed : (0:ℤ) < c.ed := by exact_mod_cast c.ed_pos
  rcases mulAssign_cases (c := c) hxz hyz with ⟨h1, e⟩ | ⟨h1, h2, e⟩ | ⟨h1, h2, h3, e⟩ | ⟨h1, h2, h0, h3, e⟩ | ⟨h1, h2, h3, h4, e⟩
  · rw [e]
    rcases isOneSN_spec hx.toWF h1 with ⟨a, ae⟩ | ⟨a, ae⟩
    · refine ⟨setNeg_full hy _, hyz, rfl, ⟨?_, ?_⟩, Or.inl ⟨?_, ?_⟩⟩
      · show _ ≤ y.exp; omega
      · show y.exp ≤ _; omega
      · rw [setNeg_abs c y (x.neg != y.neg), a, one_mul]
      · rw [setNeg_abs c y (x.neg != y.neg), a, one_mul]; linarith [DW.ulp_pos c { y with neg := (x.neg != y.neg) }]
    · refine ⟨setNeg_full hy _, hyz, rfl, ⟨?_, ?_⟩, Or.inr ⟨Or.inl ⟨a, setNeg_abs _ _ _⟩, ?_, ?_⟩⟩
      · show _ ≤ y.exp; omega
      · show y.exp ≤ _; omega
      · rw [setNeg_abs c y (x.neg != y.neg), a]; nlinarith [abs_nonneg (y.val c)]
      · rw [setNeg_abs c y (x.neg != y.neg), a]
        have := nearOne_err hy.toWF
        show _ < _ + y.ulp c; linarith
  · rw [e]
    rcases isOneSN_spec hy.toWF h2 with ⟨a, ae⟩ | ⟨a, ae⟩
    · refine ⟨setNeg_full hx _, hxz, rfl, ⟨?_, ?_⟩, Or.inl ⟨?_, ?_⟩⟩
      · show _ ≤ x.exp; omega
      · show x.exp ≤ _; omega
      · rw [setNeg_abs c x (x.neg != y.neg), a, mul_one]
      · rw [setNeg_abs c x (x.neg != y.neg), a, mul_one]; linarith [DW.ulp_pos c { x with neg := (x.neg != y.neg) }]
    · refine ⟨setNeg_full hx _, hxz, rfl, ⟨?_, ?_⟩, Or.inr ⟨Or.inr ⟨a, setNeg_abs _ _ _⟩, ?_, ?_⟩⟩
      · show _ ≤ x.exp; omega
      · show x.exp ≤ _; omega
      · rw [setNeg_abs c x (x.neg != y.neg), a]; nlinarith [abs_nonneg (x.val c)]
      · rw [setNeg_abs c x (x.neg != y.neg), a]
        have := nearOne_err hx.toWF
        show _ < _ + x.ulp c; linarith
  · omega
  · omega
  · rw [e]
    have hp : min x.prec y.prec = c.N := by rw [hx.full, hy.full, Nat.min_self]
    rw [hp]
    obtain ⟨q1, q2, q3, q4, q5, q6, q7⟩ := mulDispatch_val (u := { x with neg := false }) (setNeg_wf hx.toWF false) hy.toWF hxz hyz
      (le_refl _) hok (e := x.exp + y.exp) (dvd_add hx.dvd hy.dvd) rfl
    set r := mulDispatch c c.N { x with neg := false, exp := x.exp + y.exp } y with hr
    change r.absp c c.N ≤ x.absp c c.N * y.absp c c.N at q6
    change x.absp c c.N * y.absp c c.N < r.absp c c.N + 10 ^ r.lexpp c c.N at q7
    rw [absp_N hx.len, absp_N hy.len, absp_N q1.len] at q6 q7
    refine ⟨⟨setNeg_wf q1 _, ?_⟩, q2, rfl, ?_, Or.inl ⟨?_, ?_⟩⟩
    · show r.prec = c.N; rw [q4]; exact hx.full
    · show x.exp + y.exp ≤ r.exp ∧ r.exp ≤ _; rcases q5 with h | h <;> rw [h] <;> omega
    · rw [setNeg_abs c r (x.neg != y.neg)]; exact q6
    · rw [setNeg_abs c r (x.neg != y.neg)]; exact q7

/-- Saturation. -/
theorem mulAssign_over {c : Cfg} {x y : DW} (hxz : x.isZero = false) (hyz : y.isZero = false)
    (h1 : isOneSN c x = false) (h2 : isOneSN c y = false) (hE : 0 < c.maxExp) (h : (c.maxExp : ℤ) ≤ x.exp + y.exp) :
    mulAssign c x y = { maxVal c with neg := (x.neg != y.neg) } := by
  rcases mulAssign_cases (c := c) hxz hyz with ⟨a, e⟩ | ⟨a, b, e⟩ | ⟨a, b, d, e⟩ | ⟨a, b, h0, d, e⟩ | ⟨a, b, d, f, e⟩
  · rw [h1] at a; simp at a
  · rw [h2] at b; simp at b
  · exact e
  · omega
  · omega

theorem mulAssign_under {c : Cfg} {x y : DW} (hxz : x.isZero = false) (hyz : y.isZero = false)
    (h1 : isOneSN c x = false) (h2 : isOneSN c y = false) (hE : 0 < c.maxExp) (h : x.exp + y.exp ≤ -(c.maxExp : ℤ)) :
    mulAssign c x y = { minVal c with neg := (x.neg != y.neg) } := by
  rcases mulAssign_cases (c := c) hxz hyz with ⟨a, e⟩ | ⟨a, b, e⟩ | ⟨a, b, d, e⟩ | ⟨a, b, h0, d, e⟩ | ⟨a, b, d, f, e⟩
  · rw [h1] at a; simp at a
  · rw [h2] at b; simp at b
  · omega
  · exact e
  · omega

/-! ### A zero operand -/

theorem isOneSN_zero (c : Cfg) (x : DW) (h : x.isZero = true) : isOneSN c x = false := by
  have h0 : x.d0 = 0 := by simpa [isZero] using h
  have hB : c.B - 1 ≠ 0 := by have := c.one_lt_B; omega
  unfold isOneSN
  rw [h0]
  have : ((0 : Nat) == c.B - 1) = false := by simpa using hB.symm
  simp [this]

theorem limbsVal_prod_zero {c : Cfg} {p : Nat} {a b : List Nat} (hp : MulOk c p) (ha : a.length = p) (hb : b.length = p)
    (va : ValidLimbs c.B a) (vb : ValidLimbs c.B b) (h : limbsVal c.B a = 0) : ∀ d ∈ prodLimbs c p a b, d = 0 := by
  obtain ⟨s1, s2, s3⟩ := prodLimbs_spec hp ha hb va vb
  rw [h, Nat.zero_mul, Nat.zero_mul] at s3
  exact (limbsVal_zero_iff c.B_pos).mp s3

theorem mulDispatch_zero {c : Cfg} {u v : DW} {p : Nat} (hu : WF c u) (hvl : v.data.length = c.N) (hvv : ValidLimbs c.B v.data) (hz : ∀ d ∈ u.data, d = 0)
    (hp : p ≤ c.N) (hok : MulOk c p) :
    (∀ d ∈ (mulDispatch c p u v).data, d = 0) ∧ WF c (mulDispatch c p u v) ∧ (mulDispatch c p u v).exp = u.exp ∧
    (mulDispatch c p u v).prec = u.prec := by
  have hl1 := take_length' hu.len hp
  have hl2 := take_length' hvl hp
  obtain ⟨s1, s2, s3⟩ := prodLimbs_spec hok hl1 hl2 (hu.valid.take p) (hvv.take p)
  have hall := limbsVal_prod_zero hok hl1 hl2 (hu.valid.take p) (hvv.take p)
    (limbsVal_eq_zero fun d hd => hz d (List.mem_of_mem_take hd))
  have hp1 := hok.1
  generalize hR : prodLimbs c p (u.data.take p) (v.data.take p) = R at *
  have hdisp : mulDispatch c p u v = if R.headD 0 ≠ 0 then { u with data := R.take p ++ u.data.drop p, exp := u.exp + c.ed }
      else { u with data := (R.drop 1).take p ++ u.data.drop p } := by
    unfold mulDispatch
    simp only [elemsForFft, hok.2.1, if_true]
    rw [← hR]; rfl
  have hh : R.headD 0 = 0 := by
    cases R with
    | nil => rfl
    | cons y ys => exact hall y (List.mem_cons_self ..)
  rw [hdisp, if_neg (by simpa using hh)]
  have hz' : ∀ d ∈ (R.drop 1).take p ++ u.data.drop p, d = 0 := by
    intro d hd
    rcases List.mem_append.mp hd with h | h
    · exact hall d (List.mem_of_mem_drop (List.mem_of_mem_take h))
    · exact hz d (List.mem_of_mem_drop h)
  refine ⟨hz', ⟨?_, ?_, hu.dvd, hu.prec2, hu.precN, fun _ => hz'⟩, rfl, rfl⟩
  · show List.length (_ ++ _) = _
    rw [List.length_append, List.length_take, List.length_drop, List.length_drop, hu.len]; omega
  · intro d hd; rw [hz' d hd]; exact c.B_pos

/-- A zero operand, exponents in range: the result denotes zero. -/
theorem mulAssign_zero {c : Cfg} {x y : DW} (hx : Full c x) (hy : Full c y) (hz : x.isZero = true ∨ y.isZero = true)
    (hok : MulOk c c.N) (hlo : -(c.maxExp : ℤ) < y.exp) (hhi : y.exp < c.maxExp) :
    (mulAssign c x y).val c = 0 ∧ Full c (mulAssign c x y) := by
  have hz0 : (zero c).isZero = true := (zero_WF c).toWF.isZero_iff.mpr (zero_val c)
  have h1 : isOneSN c { zero c with neg := false } = false := isOneSN_zero c _ hz0
  have fin : ∀ (r : DW) (b : Bool), Full c r → r.isZero = true →
      DW.val c { r with neg := b } = 0 ∧ Full c { r with neg := b } := by
    intro r b hr hrz
    exact ⟨(setNeg_wf hr.toWF b).isZero_iff.mp hrz, setNeg_full hr b⟩
  unfold mulAssign
  have hz' : x.isZero = true ∨ y.isZero = true := hz
  simp only [hz', if_true, h1, Bool.false_eq_true, if_false]
  split
  · next h2 => exact fin _ _ (setNeg_full (zero_WF c) false) hz0
  · next h2 =>
    have he : (zero c).exp = 0 := rfl
    have hng : (zero c).neg = false := rfl
    rw [if_neg (by rw [he]; omega), if_neg (by rw [he]; omega)]
    have hp : min (zero c).prec y.prec = c.N := by rw [(zero_WF c).full, hy.full, Nat.min_self]
    rw [hp]
    have hu : WF c { zero c with neg := false, exp := (zero c).exp + y.exp } :=
      ⟨(zero_WF c).len, (zero_WF c).valid, by rw [he, zero_add]; exact hy.dvd, (zero_WF c).prec2, (zero_WF c).precN, (zero_WF c).lead⟩
    obtain ⟨q1, q2, q3, q4⟩ := mulDispatch_zero hu hy.len hy.valid ((zero_WF c).lead (by simpa [isZero] using hz0)) (le_refl _) hok
    refine fin _ _ ⟨q2, by rw [q4]; exact (zero_WF c).full⟩ ?_
    have : DW.d0 (mulDispatch c c.N { zero c with neg := false, exp := (zero c).exp + y.exp } y) = 0 := by
      unfold d0
      cases hh : (mulDispatch c c.N { zero c with neg := false, exp := (zero c).exp + y.exp } y).data with
      | nil => rfl
      | cons a as => exact q1 a (by rw [hh]; simp)
    simp [isZero, this]

end WD
