import Verif.Proofs.Radix
import Verif.Proofs.KaraMal
import Verif.Proofs.Start3
/-
  The Newton iteration of `calculate_inv` from a malformed start value `[B, 0, …, 0]` (fewer than 1793 limbs).
-/
namespace WD
open DW
variable {c : Cfg} {F : Flt}

/-- An object whose first limb is the radix and whose other limbs are zero: malformed, with the value 10^(exp+ed). -/
structure Mal (c : Cfg) (y : DW) : Prop where
  data : y.data = radixLimbs c.B c.N
  dvd : (c.ed : ℤ) ∣ y.exp
  prec2 : 2 ≤ y.prec
  precN : y.prec ≤ c.N

/-- The well-formed object of the same value. -/
def twin (c : Cfg) (y : DW) : DW := { y with data := 1 :: List.replicate (c.N - 1) 0, exp := y.exp + c.ed }

theorem N_pos (c : Cfg) : 0 < c.N := by have := c.three_le_N; omega

theorem one_lt_B (c : Cfg) : 1 < c.B := by unfold Cfg.B; cases c.L <;> decide

theorem Mal.twin_wf {y : DW} (h : Mal c y) : WF c (twin c y) := by
  refine ⟨?_, ?_, dvd_add h.dvd (dvd_refl _), h.prec2, h.precN, ?_⟩
  · have := N_pos c; simp [twin]; omega
  · simp only [twin, validLimbs_cons]
    exact ⟨one_lt_B c, validLimbs_replicate c.B_pos⟩
  · intro h; simp [twin, d0] at h

theorem Mal.twin_nz {y : DW} : (twin c y).isZero = false := by simp [twin, isZero, d0]

theorem Mal.d0 {y : DW} (h : Mal c y) : y.d0 = c.B := by unfold DW.d0; rw [h.data]; rfl

theorem Mal.nz {y : DW} (h : Mal c y) : y.isZero = false := by
  unfold isZero; rw [h.d0]; have := one_lt_B c; simp; omega

theorem Mal.not_one {y : DW} (h : Mal c y) : isOneSN c y = false := by
  have hB := one_lt_B c
  have h0 := h.d0
  unfold isOneSN
  rw [h0]
  simp only [h.data, radixLimbs]
  have e1 : ¬ (c.B = 1) := by omega
  have e2 : ¬ (c.B = c.B - 1) := by omega
  simp [e1, e2]

theorem Mal.twin_val {y : DW} (h : Mal c y) : (twin c y).val c = y.val c := by
  have hN := N_pos c
  have h1 : (limbsVal c.B (1 :: List.replicate (c.N - 1) 0) : ℚ) * c.B = limbsVal c.B (radixLimbs c.B c.N) := by
    rw [radixLimbs_val hN, limbsVal_cons, limbsVal_replicate_zero]
    obtain ⟨k, hk⟩ : ∃ k, c.N = k + 1 := ⟨c.N - 1, by omega⟩
    rw [hk]; simp [pow_succ]
  have h2 : (10 : ℚ) ^ ((c.ed : ℤ)) = c.B := by rw [c.B_eq]; push_cast; rw [zpow_natCast]
  have hm : |(twin c y).val c| = |y.val c| := by
    rw [abs_val, abs_val]
    unfold mant lexp
    rw [h.data, ← h1]
    simp only [twin]
    rw [show y.exp + (c.ed : ℤ) - (c.ed : ℤ) * ((c.N : ℤ) - 1) = c.ed + (y.exp - (c.ed : ℤ) * ((c.N : ℤ) - 1)) by ring,
      zpow_add₀ (by norm_num), h2]
    ring
  rw [val_sgn c (twin c y), val_sgn c y, hm]; rfl

/-- Product with a malformed power on the left. -/
theorem Mal.mul_left {y v : DW} (h : Mal c y) (hv : WF c v) (hvz : v.isZero = false) (hv1 : isOneSN c v = false)
    (hlo : -(c.maxExp : ℤ) < y.exp + v.exp) (hhi : y.exp + v.exp < c.maxExp) (hN : c.N < 1793) :
    mulAssign c y v = { data := v.data.take (min y.prec v.prec) ++ List.replicate (c.N - min y.prec v.prec) 0,
                        exp := y.exp + v.exp + c.ed, neg := (y.neg != v.neg), prec := y.prec } := by
  have hp2 : 2 ≤ min y.prec v.prec := by have := h.prec2; have := hv.prec2; omega
  have hpN : min y.prec v.prec ≤ c.N := by have := h.precN; omega
  rcases mulAssign_cases (c := c) h.nz hvz with ⟨h1, -⟩ | ⟨-, h1, -⟩ | ⟨-, -, h', -⟩ | ⟨-, -, -, h', -⟩ | ⟨-, -, -, -, h2⟩
  · rw [h.not_one] at h1; exact absurd h1 (by simp)
  · rw [hv1] at h1; exact absurd h1 (by simp)
  · omega
  · omega
  · rw [h2]
    generalize hp : min y.prec v.prec = p at *
    have hbl : (v.data.take p).length = p := by rw [List.length_take, hv.len]; omega
    have hat : y.data.take p = radixLimbs c.B p := by
      rw [h.data, radixLimbs, radixLimbs]
      obtain ⟨k, rfl⟩ : ∃ k, p = k + 1 := ⟨p - 1, by omega⟩
      rw [List.take_succ_cons, List.take_replicate]; congr 2; omega
    have hdr : y.data.drop p = List.replicate (c.N - p) 0 := by
      rw [h.data, radixLimbs]
      obtain ⟨k, rfl⟩ : ∃ k, p = k + 1 := ⟨p - 1, by omega⟩
      rw [List.drop_succ_cons, List.drop_replicate]; congr 1; omega
    obtain ⟨k, hs⟩ := prod_mal_left (c := c) (p := p) (by omega) (by omega) hbl (hv.valid.take p)
    have hhd : (v.data.take p ++ List.replicate (p + k) 0).headD 0 ≠ 0 := by
      have : v.d0 ≠ 0 := by
        intro h0; unfold isZero at hvz; rw [h0] at hvz; simp at hvz
      unfold DW.d0 at this
      cases hd : v.data with
      | nil => rw [hd] at this; simp at this
      | cons a l =>
        rw [hd] at this
        obtain ⟨j, rfl⟩ : ∃ j, p = j + 1 := ⟨p - 1, by omega⟩
        simpa using this
    unfold mulDispatch
    simp only [hat, hdr]
    rw [if_pos (show p < elemsForFft by unfold elemsForFft; omega)]
    simp only [hs]
    rw [if_pos hhd]
    have htk : (v.data.take p ++ List.replicate (p + k) 0).take p = v.data.take p := by
      rw [List.take_append_of_le_length (by rw [hbl]), List.take_take, Nat.min_self]
    rw [htk]

/-- Product with a malformed power on the right. -/
theorem Mal.mul_right {u y : DW} (h : Mal c y) (hu : WF c u) (huz : u.isZero = false) (hu1 : isOneSN c u = false)
    (hlo : -(c.maxExp : ℤ) < u.exp + y.exp) (hhi : u.exp + y.exp < c.maxExp) (hN : c.N < 1793) :
    mulAssign c u y = { u with exp := u.exp + y.exp + c.ed, neg := (u.neg != y.neg) } := by
  have hp2 : 2 ≤ min u.prec y.prec := by have := h.prec2; have := hu.prec2; omega
  have hpN : min u.prec y.prec ≤ c.N := by have := h.precN; omega
  rcases mulAssign_cases (c := c) huz h.nz with ⟨h1, -⟩ | ⟨-, h1, -⟩ | ⟨-, -, h', -⟩ | ⟨-, -, -, h', -⟩ | ⟨-, -, -, -, h2⟩
  · rw [hu1] at h1; exact absurd h1 (by simp)
  · rw [h.not_one] at h1; exact absurd h1 (by simp)
  · omega
  · omega
  · rw [h2]
    generalize hp : min u.prec y.prec = p at *
    have hbl : (u.data.take p).length = p := by rw [List.length_take, hu.len]; omega
    have hat : y.data.take p = radixLimbs c.B p := by
      rw [h.data, radixLimbs, radixLimbs]
      obtain ⟨k, rfl⟩ : ∃ k, p = k + 1 := ⟨p - 1, by omega⟩
      rw [List.take_succ_cons, List.take_replicate]; congr 2; omega
    obtain ⟨k, hs⟩ := prod_mal_right (c := c) (p := p) (by omega) (by omega) hbl (hu.valid.take p)
    have hhd : (u.data.take p ++ List.replicate (p + k) 0).headD 0 ≠ 0 := by
      have : u.d0 ≠ 0 := by
        intro h0; unfold isZero at huz; rw [h0] at huz; simp at huz
      unfold DW.d0 at this
      cases hd : u.data with
      | nil => rw [hd] at this; simp at this
      | cons a l =>
        rw [hd] at this
        obtain ⟨j, rfl⟩ : ∃ j, p = j + 1 := ⟨p - 1, by omega⟩
        simpa using this
    unfold mulDispatch
    simp only [hat]
    rw [if_pos (show p < elemsForFft by unfold elemsForFft; omega)]
    simp only [hs]
    rw [if_pos hhd]
    have htk : (u.data.take p ++ List.replicate (p + k) 0).take p = u.data.take p := by
      rw [List.take_append_of_le_length (by rw [hbl]), List.take_take, Nat.min_self]
    rw [htk, List.take_append_drop]

/-- Product of a malformed power and a "one". -/
theorem Mal.mul_one {y v : DW} (h : Mal c y) (hvz : v.isZero = false) (hv1 : isOneSN c v = true) :
    mulAssign c y v = { y with neg := (y.neg != v.neg) } := by
  rcases mulAssign_cases (c := c) h.nz hvz with ⟨h1, -⟩ | ⟨-, -, h2⟩ | ⟨-, h', -⟩ | ⟨-, h', -⟩ | ⟨-, h', -⟩
  · rw [h.not_one] at h1; exact absurd h1 (by simp)
  · exact h2
  all_goals (rw [hv1] at h'; exact absurd h' (by simp))

theorem Mal.setPrec {y : DW} (h : Mal c y) {q : ℕ} (h2 : 2 ≤ q) (hN : q ≤ c.N) : Mal c { y with prec := q } := ⟨h.data, h.dvd, h2, hN⟩

/-- Same relation as `mul_rel`, with the well-formed twin in the place of the malformed operand. -/
theorem Mal.mul_rel {y v : DW} (h : Mal c y) (hv : WF c v) (hvz : v.isZero = false) (hv1 : isOneSN c v = false) {p : ℕ}
    (hpp : p = min y.prec v.prec) (hlo : -(c.maxExp : ℤ) < y.exp + v.exp) (hhi : y.exp + v.exp < c.maxExp) (hN : c.N < 1793) :
    let r := mulAssign c y v
    WF c r ∧ r.isZero = false ∧ r.neg = (y.neg != v.neg) ∧ r.prec = y.prec ∧
    r.absp c p * (1 - eta c p / 50) ≤ (twin c y).absp c p * v.absp c p ∧
    (twin c y).absp c p * v.absp c p < r.absp c p * (1 + eta c p) := by
  intro r
  have hp2 : 2 ≤ p := by have := h.prec2; have := hv.prec2; omega
  have hpN : p ≤ c.N := by have := h.precN; omega
  have he := eta_pos c p
  have hr : r = { data := v.data.take p ++ List.replicate (c.N - p) 0, exp := y.exp + v.exp + c.ed, neg := (y.neg != v.neg),
                  prec := y.prec } := by rw [hpp]; exact h.mul_left hv hvz hv1 hlo hhi hN
  have hbl : (v.data.take p).length = p := by rw [List.length_take, hv.len]; omega
  have hd0 : r.d0 = v.d0 := by
    rw [hr]
    unfold DW.d0
    simp only
    cases hd : v.data with
    | nil => have := hv.len; rw [hd] at this; simp at this; omega
    | cons a l =>
      obtain ⟨k, rfl⟩ : ∃ k, p = k + 1 := ⟨p - 1, by omega⟩
      rw [List.take_succ_cons]; rfl
  have hrz : r.isZero = false := by unfold isZero at hvz ⊢; rw [hd0]; exact hvz
  have hw : WF c r := by
    refine ⟨by rw [hr]; simp only [List.length_append, hbl, List.length_replicate]; omega, ?_, ?_, by rw [hr]; exact h.prec2,
      by rw [hr]; exact h.precN, ?_⟩
    · rw [hr]; simp only; rw [validLimbs_append]; exact ⟨hv.valid.take p, validLimbs_replicate c.B_pos⟩
    · rw [hr]; exact dvd_add (dvd_add h.dvd hv.dvd) (dvd_refl _)
    · intro h0; unfold isZero at hrz; rw [h0] at hrz; simp at hrz
  have htw : (twin c y).absp c p = 10 ^ (y.exp + c.ed) := by
    unfold absp mantp lexpp
    simp only [twin]
    obtain ⟨k, rfl⟩ : ∃ k, p = k + 1 := ⟨p - 1, by omega⟩
    have hrep : (List.replicate (c.N - 1) 0).take k = List.replicate k 0 := by
      rw [List.take_replicate]; congr 1; omega
    rw [List.take_succ_cons, limbsVal_cons, hrep, limbsVal_replicate_zero, List.length_replicate]
    have h1 := c.p10_mul_B (y.exp + c.ed - (c.ed : ℤ) * k) k
    rw [sub_add_cancel] at h1
    rw [show y.exp + (c.ed : ℤ) - (c.ed : ℤ) * (((k + 1 : ℕ) : ℤ) - 1) = y.exp + c.ed - (c.ed : ℤ) * k by push_cast; ring, ← h1]
    push_cast; ring
  have hra : r.absp c p = (twin c y).absp c p * v.absp c p := by
    rw [htw]
    unfold absp mantp lexpp
    rw [hr]
    simp only
    rw [List.take_append_of_le_length (by rw [hbl]), List.take_take, Nat.min_self]
    rw [show y.exp + v.exp + (c.ed : ℤ) - (c.ed : ℤ) * ((p : ℤ) - 1) = (y.exp + c.ed) + (v.exp - (c.ed : ℤ) * ((p : ℤ) - 1)) by ring,
      zpow_add₀ (by norm_num)]
    ring
  have hpos := hw.absp_pos hrz (p := p) (by omega) hpN
  refine ⟨hw, hrz, by rw [hr], by rw [hr], ?_, ?_⟩
  · rw [← hra]; nlinarith
  · rw [← hra]; nlinarith

set_option maxHeartbeats 2000000 in
/-- One Newton round from a malformed value. -/
theorem invStep_mal (hok : MulOkAll c) {x y : DW} (hx : Posi c x) (hx1 : isOneSN c x = false) (hy : Mal c y) (hyn : y.neg = false)
    (hm : 2 * (c.ed : ℤ) < c.maxExp) (hN : c.N < 1793)
    (hlo : -(c.maxExp : ℤ) < x.exp) (hlo2 : x.exp + 3 * c.ed < c.maxExp) (hhi : x.exp < c.maxExp) {δ : ℚ} (hδ0 : δ ≤ 1 / 100)
    (hδ : |(|y.val c| * |x.val c|) - 1| ≤ δ) (D : ℕ) :
    let s := invStep c D y x
    let η := (10 : ℚ) ^ (-(2 * (D : ℤ) + 1)) + eta c c.N
    (Posi c s.1 ∨ (Mal c s.1 ∧ s.1.neg = false)) ∧ (∃ q, 2 ≤ q ∧ q ≤ c.N ∧ s.2 = { x with prec := q }) ∧
    |s.1.val c| * |x.val c| - 1 ≤ 21 / 5 * η ∧ 1 - |s.1.val c| * |x.val c| ≤ (δ + 51 / 50 * η) ^ 2 + 21 / 10 * η := by
  intro s η
  obtain ⟨q, q2, qN, hq, hqe⟩ := round_prec (c := c) D
  have hη0 := eta_pos c q
  have hη1 := eta_le (c := c) q2
  have hYm := hy.setPrec q2 qN
  have hxp := hx.setPrec q2 qN
  have hs : s = (mulAssign c { y with prec := q } (subAssign c (two c) (mulAssign c { y with prec := q } { x with prec := q })),
      { x with prec := q }) := by
    show invStep c D y x = _
    unfold invStep
    have hmn : ((min (c.ed + 1) 9 : ℕ) : ℤ) = min ((c.ed : ℤ) + 1) 9 := by push_cast; rfl
    simp only [hmn, hq]
  have hX1 : isOneSN c { x with prec := q } = false := hx1
  obtain ⟨Y, hY⟩ : ∃ Y : DW, Y = { y with prec := q } := ⟨_, rfl⟩
  obtain ⟨X, hX⟩ : ∃ X : DW, X = { x with prec := q } := ⟨_, rfl⟩
  rw [← hX] at hX1
  rw [← hY] at hYm
  have hYv : |(twin c Y).val c| = |y.val c| := by rw [hYm.twin_val, hY]; rfl
  have hXv : |X.val c| = |x.val c| := by rw [hX]; rfl
  have hYp : Y.prec = q := by rw [hY]
  have hXp : X.prec = q := by rw [hX]
  have hXe : X.exp = x.exp := by rw [hX]
  have hYn : Y.neg = false := by rw [hY]; exact hyn
  rw [← hY, ← hX] at hs
  have hyp : Posi c (twin c Y) := ⟨hYm.twin_wf, Mal.twin_nz, hYn⟩
  rw [← hX] at hxp
  obtain ⟨k1, k2⟩ := abs_le.mp hδ
  have hed : 2 ≤ c.ed := by unfold Cfg.ed; cases c.L <;> decide
  have hte : (twin c Y).exp = Y.exp + c.ed := rfl
  -- exponents
  have e1 := hyp.toWF.abs_ge hyp.nz
  have e2 := hyp.toWF.abs_lt
  have e3 := hxp.toWF.abs_ge hxp.nz
  have e4 := hxp.toWF.abs_lt
  have ex1 : (twin c Y).exp + X.exp ≤ 0 := by
    by_contra hc
    have : (10 : ℚ) ^ (1 : ℤ) ≤ 10 ^ ((twin c Y).exp + X.exp) := zpow_le_zpow_right₀ (by norm_num) (by omega)
    rw [zpow_add₀ (by norm_num)] at this
    have h := mul_le_mul e1 e3 (p10_pos _).le (abs_nonneg _)
    rw [hYv, hXv] at h
    norm_num at this; linarith
  have ex2 : 0 ≤ (twin c Y).exp + X.exp + 2 * c.ed := by
    by_contra hc
    have : (10 : ℚ) ^ ((twin c Y).exp + c.ed + (X.exp + c.ed)) ≤ 10 ^ (-1 : ℤ) := zpow_le_zpow_right₀ (by norm_num) (by omega)
    rw [zpow_add₀ (by norm_num)] at this
    have h := mul_le_mul e2.le e4.le (abs_nonneg _) (p10_pos _).le
    rw [hYv, hXv] at h
    norm_num at this; linarith
  have ex2' : 0 ≤ (twin c Y).exp + X.exp + c.ed := by
    -- both exponents are multiples of ed and the value of the twin is a power of the radix
    obtain ⟨k, hk⟩ := dvd_add hyp.dvd hxp.dvd
    by_contra hc
    have hk2 : (twin c Y).exp + X.exp = -(2 * c.ed) := by
      rw [hk] at hc ex2 ⊢
      have hedp : (0 : ℤ) < c.ed := by omega
      have h1 : k < -1 := by
        by_contra h
        have : (c.ed : ℤ) * (-1) ≤ c.ed * k := mul_le_mul_of_nonneg_left (by omega) hedp.le
        omega
      have h2 : -2 ≤ k := by
        by_contra h
        have : (c.ed : ℤ) * k ≤ c.ed * (-3) := mul_le_mul_of_nonneg_left (by omega) hedp.le
        omega
      have : k = -2 := by omega
      rw [this]; ring
    have htv : |(twin c Y).val c| = 10 ^ (twin c Y).exp := by
      rw [abs_val]
      unfold mant lexp
      simp only [twin]
      rw [limbsVal_cons, limbsVal_replicate_zero, List.length_replicate]
      have h1 := c.p10_mul_B (Y.exp + c.ed - (c.ed : ℤ) * ((c.N : ℤ) - 1)) (c.N - 1)
      have hN1 : ((c.N - 1 : ℕ) : ℤ) = (c.N : ℤ) - 1 := by have := N_pos c; omega
      rw [hN1, sub_add_cancel] at h1
      rw [← h1]; push_cast; ring
    have h := mul_lt_mul_of_pos_left e4 (p10_pos (twin c Y).exp)
    rw [← zpow_add₀ (by norm_num), ← htv, hYv, hXv] at h
    have : (10 : ℚ) ^ ((twin c Y).exp + (X.exp + c.ed)) ≤ 10 ^ (-2 : ℤ) := zpow_le_zpow_right₀ (by norm_num) (by omega)
    norm_num at this
    linarith
  -- t = y * x
  obtain ⟨t1, t2, t3, t4, t5, t6⟩ := hYm.mul_rel hxp.toWF hxp.nz hX1 (p := q) (by rw [hYp, hXp, Nat.min_self]) (by omega) (by omega) hN
  set t := mulAssign c Y X with ht
  have htp : t.prec = q := by rw [t4, hYp]
  have htn : t.neg = false := by rw [t3, hYn, hxp.nn]; rfl
  have y0 := hyp.toWF.absp_pos hyp.nz (p := q) (by omega) qN
  have x0 := hxp.toWF.absp_pos hxp.nz (p := q) (by omega) qN
  have tp0 := t1.absp_pos t2 (p := q) (by omega) qN
  have y1 := hyp.toWF.absp_le qN
  have x1 := hxp.toWF.absp_le qN
  have y2 := hyp.toWF.lt_absp_rel hyp.nz (p := q) (by omega) qN
  have x2 := hxp.toWF.lt_absp_rel hxp.nz (p := q) (by omega) qN
  have hyx : (twin c Y).absp c q * X.absp c q ≤ 101 / 100 := by
    have := mul_le_mul y1 x1 x0.le (abs_nonneg _)
    rw [hYv, hXv] at this; linarith
  have hyx2 : 9 / 10 ≤ (twin c Y).absp c q * X.absp c q := by
    have h := mul_le_mul y2.le x2.le (abs_nonneg _) (by positivity)
    rw [hYv, hXv] at h
    have h' : (1 + eta c q) * (1 + eta c q) ≤ 1021 / 1000 := by nlinarith
    have h'' := mul_le_mul_of_nonneg_left h' (mul_pos y0 x0).le
    nlinarith
  have tl : 1 / 2 < t.absp c t.prec := by rw [htp]; nlinarith
  have th : t.absp c t.prec < 19 / 10 := by rw [htp]; nlinarith
  obtain ⟨r1, r2, r3, r4, r5, r6⟩ := two_sub t1 t2 htn tl th
  set r := subAssign c (two c) t with hr
  rw [htp] at r5 r6 tl th
  have rp0 := r1.absp_pos r2 (p := q) (by omega) qN
  have rr1 := r1.absp_le qN
  have rr2 := r1.lt_absp_rel r2 (p := q) (by omega) qN
  have hrh : r.absp c q < 2 := by linarith
  have htu : t.absp c q ≤ 103 / 100 := by nlinarith
  have hrl : 1 / 2 < r.absp c q := by nlinarith
  have hre := exp_near_one r1 r2 (p := q) (by omega) qN hrl hrh
  have hsz : s.1 = mulAssign c Y r := by rw [hs]
  have hδp : 0 ≤ δ := le_trans (abs_nonneg _) hδ
  have hx0 : 0 < |X.val c| := lt_of_lt_of_le x0 x1
  have hmono : (δ + 51 / 50 * eta c q) ^ 2 ≤ (δ + 51 / 50 * η) ^ 2 := by
    apply pow_le_pow_left₀ (by positivity)
    linarith
  have hs2 : ∃ q, 2 ≤ q ∧ q ≤ c.N ∧ s.2 = { x with prec := q } := ⟨q, q2, qN, by rw [hs, hX]⟩
  rcases Bool.dichotomy (isOneSN c r) with hr1 | hr1
  · obtain ⟨z1, z2, z3, z4, z5, z6⟩ := hYm.mul_rel r1 r2 hr1 (p := q) (by rw [hYp, r4]; omega) (by omega) (by omega) hN
    rw [← hsz] at z1 z2 z3 z4 z5 z6
    have zp0 := z1.absp_pos z2 (p := q) (by omega) qN
    have zz1 := z1.absp_le qN
    have zz2 := z1.lt_absp_rel z2 (p := q) (by omega) qN
    obtain ⟨f1, f2⟩ := newton_step (δ := δ) hη0 hη1 hx0 y0 x0 tp0 zp0 y1 y2 x1 x2 t5 t6 r5 r6 rr1 rr2 z5 z6 zz1 zz2 hδ0
      (by rw [hYv, hXv]; exact hδ)
    rw [hXv] at f1 f2
    exact ⟨Or.inl ⟨z1, z2, by rw [z3, hYn, r3]; rfl⟩, hs2, by linarith, by linarith⟩
  · have hz := hYm.mul_one r2 hr1
    rw [← hsz, hYn, r3] at hz
    have hzY : s.1 = Y := by
      rw [hz]
      show ({ Y with neg := false } : DW) = Y
      rw [← hYn]
    obtain ⟨a1, a2⟩ := isOneSN_absp r1 r2 hr1 q2 qN
    have hlt1 : (twin c Y).absp c q * r.absp c q < (twin c Y).absp c q * (1 + eta c q) :=
      mul_lt_mul_of_pos_left (by linarith) y0
    obtain ⟨f1, f2⟩ := newton_step (δ := δ) (zp := (twin c Y).absp c q) (z := |(twin c Y).val c|) hη0 hη1 hx0 y0 x0 tp0 y0 y1 y2 x1 x2
      t5 t6 r5 r6 rr1 rr2 (mul_le_mul_of_nonneg_left a1 y0.le) hlt1 y1 y2 hδ0
      (by rw [hYv, hXv]; exact hδ)
    rw [hXv, hYm.twin_val] at f1 f2
    rw [hzY]
    exact ⟨Or.inr ⟨hYm, hYn⟩, hs2, by linarith, by linarith⟩

/-- The Newton loop from a well-formed or malformed start. -/
theorem invLoop_quasi (hok : MulOkAll c) (hm : 2 * (c.ed : ℤ) < c.maxExp) (hN : c.N < 1793) (limit : ℕ) :
    ∀ (n D : ℕ) (x y : DW), limit ≤ D + n → 5 ≤ D → Posi c x → isOneSN c x = false → (Posi c y ∨ (Mal c y ∧ y.neg = false)) →
    -(c.maxExp : ℤ) < x.exp → x.exp + 3 * c.ed < c.maxExp → x.exp < c.maxExp →
    |(|y.val c| * |x.val c|) - 1| ≤ 43 / 100 * (10 : ℚ) ^ (-(D : ℤ)) + 43 / 10 * eta c c.N →
    (Posi c (invLoop c limit D y x) ∨ (Mal c (invLoop c limit D y x) ∧ (invLoop c limit D y x).neg = false)) ∧
    |(|(invLoop c limit D y x).val c| * |x.val c|) - 1| ≤ 43 / 100 * (10 : ℚ) ^ (-(limit : ℤ)) + 43 / 10 * eta c c.N := by
  intro n
  induction n with
  | zero =>
    intro D x y hl hD hx _ hy _ _ _ hy1
    have e : invLoop c limit D y x = y := by rw [invLoop]; rw [dif_neg (by omega)]
    rw [e]
    refine ⟨hy, le_trans hy1 ?_⟩
    have : (10 : ℚ) ^ (-(D : ℤ)) ≤ 10 ^ (-(limit : ℤ)) := zpow_le_zpow_right₀ (by norm_num) (by omega)
    linarith
  | succ n ih =>
    intro D x y hl hD hx hx1 hy h1 h2 h2' hy1
    by_cases hc : D < limit
    · have e : invLoop c limit D y x = invLoop c limit (D * 2) (invStep c D y x).1 (invStep c D y x).2 := by
        rw [invLoop]; rw [dif_pos ⟨hc, by omega⟩]
      have hE0 := p10_pos (-(D : ℤ))
      have hE : (10 : ℚ) ^ (-(D : ℤ)) ≤ 1 / 10 ^ 5 := by
        calc (10 : ℚ) ^ (-(D : ℤ)) ≤ 10 ^ (-5 : ℤ) := zpow_le_zpow_right₀ (by norm_num) (by omega)
          _ = _ := by norm_num
      have hn0 := eta_pos c c.N
      have hn := eta_N_le c
      have hδ0 : 43 / 100 * (10 : ℚ) ^ (-(D : ℤ)) + 43 / 10 * eta c c.N ≤ 1 / 100 := by linarith
      have hstep : (Posi c (invStep c D y x).1 ∨ (Mal c (invStep c D y x).1 ∧ (invStep c D y x).1.neg = false)) ∧
          (∃ q, 2 ≤ q ∧ q ≤ c.N ∧ (invStep c D y x).2 = { x with prec := q }) ∧
          |(invStep c D y x).1.val c| * |x.val c| - 1 ≤ 21 / 5 * ((10 : ℚ) ^ (-(2 * (D : ℤ) + 1)) + eta c c.N) ∧
          1 - |(invStep c D y x).1.val c| * |x.val c| ≤ ((43 / 100 * (10 : ℚ) ^ (-(D : ℤ)) + 43 / 10 * eta c c.N) +
            51 / 50 * ((10 : ℚ) ^ (-(2 * (D : ℤ) + 1)) + eta c c.N)) ^ 2 + 21 / 10 * ((10 : ℚ) ^ (-(2 * (D : ℤ) + 1)) + eta c c.N) := by
        rcases hy with hy | ⟨hy, hyn⟩
        · obtain ⟨s1, s2, s3, s4⟩ := invStep_spec hok hx hy hm h1 h2 h2' (δ := _) hδ0 hy1 D
          exact ⟨Or.inl s1, s2, s3, s4⟩
        · exact invStep_mal hok hx hx1 hy hyn hm hN h1 h2 h2' hδ0 hy1 D
      obtain ⟨s1, ⟨q, q2, qN, hs2⟩, s3, s4⟩ := hstep
      have hη : (10 : ℚ) ^ (-(2 * (D : ℤ) + 1)) = (10 ^ (-(D : ℤ))) ^ 2 / 10 := by
        rw [show -(2 * (D : ℤ) + 1) = -(D : ℤ) + -(D : ℤ) + (-1) by ring, zpow_add₀ (by norm_num), zpow_add₀ (by norm_num)]
        norm_num; ring
      have hη2 : (10 : ℚ) ^ (-((D * 2 : ℕ) : ℤ)) = (10 ^ (-(D : ℤ))) ^ 2 := by
        rw [show -((D * 2 : ℕ) : ℤ) = -(D : ℤ) + -(D : ℤ) by push_cast; ring, zpow_add₀ (by norm_num)]
        ring
      obtain ⟨c1, c2⟩ := newton_close hE0 hE hn0 hn
      rw [hη] at s3 s4
      rw [e]
      have hx' : Posi c (invStep c D y x).2 := by rw [hs2]; exact hx.setPrec q2 qN
      have hx1' : isOneSN c (invStep c D y x).2 = false := by rw [hs2]; exact hx1
      have hxe : (invStep c D y x).2.exp = x.exp := by rw [hs2]
      have hxv : (invStep c D y x).2.val c = x.val c := by rw [hs2]; rfl
      have := ih (D * 2) (invStep c D y x).2 (invStep c D y x).1 (by omega) (by omega) hx' hx1' s1 (by rw [hxe]; exact h1)
        (by rw [hxe]; exact h2) (by rw [hxe]; exact h2') (by
          rw [hxv, hη2, abs_le]
          constructor <;> linarith)
      rw [hxv] at this
      exact this
    · have e : invLoop c limit D y x = y := by rw [invLoop]; rw [dif_neg (by omega)]
      rw [e]
      refine ⟨hy, le_trans hy1 ?_⟩
      have : (10 : ℚ) ^ (-(D : ℤ)) ≤ 10 ^ (-(limit : ℤ)) := zpow_le_zpow_right₀ (by norm_num) (by omega)
      linarith

end WD
