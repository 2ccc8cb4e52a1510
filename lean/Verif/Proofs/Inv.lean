import Verif.Props.Mul
import Mathlib.Tactic.Linarith
import Mathlib.Tactic.Positivity
import Mathlib.Tactic.FieldSimp
/-
  Reduced-precision multiplication and subtraction from two, and the Newton iteration of `calculate_inv`.
-/
namespace WD
open DW

/-- Relative weight of the last of `p` limbs. -/
def eta (c : Cfg) (p : ℕ) : ℚ := 10 ^ (-((c.ed : ℤ) * ((p : ℤ) - 1)))

theorem eta_pos (c : Cfg) (p : ℕ) : 0 < eta c p := p10_pos _

theorem eta_le {c : Cfg} {p : ℕ} (hp : 2 ≤ p) : eta c p ≤ 1 / 100 := by
  unfold eta
  have h : (2 : ℤ) ≤ c.ed := by have : 2 ≤ c.ed := by (unfold Cfg.ed; cases c.L <;> decide)
                                exact_mod_cast this
  calc (10 : ℚ) ^ (-((c.ed : ℤ) * ((p : ℤ) - 1))) ≤ 10 ^ (-2 : ℤ) := by
        apply zpow_le_zpow_right₀ (by norm_num)
        have : (1 : ℤ) ≤ (p : ℤ) - 1 := by omega
        nlinarith
    _ = _ := by norm_num

theorem lexpp_eq (c : Cfg) (p : ℕ) (x : DW) : (10 : ℚ) ^ x.lexpp c p = 10 ^ x.exp * eta c p := by
  unfold lexpp eta
  rw [← zpow_add₀ (by norm_num)]; rfl

theorem WF.absp_ge {c : Cfg} {x : DW} (h : WF c x) (hz : x.isZero = false) {p : ℕ} (hp1 : 1 ≤ p) (hp : p ≤ c.N) :
    (10 : ℚ) ^ x.exp ≤ x.absp c p := by
  have h1 := h.mantp_ge hz hp1 hp
  unfold absp
  have h2 := c.p10_mul_B (x.lexpp c p) (p - 1)
  have h3 : x.lexpp c p + (c.ed : ℤ) * ((p - 1 : ℕ) : ℤ) = x.exp := by
    unfold lexpp; push_cast [Nat.cast_sub hp1]; ring
  rw [h3] at h2
  have h4 : ((c.B : ℚ)) ^ (p - 1) ≤ x.mantp c p := by exact_mod_cast h1
  have h5 := p10_pos (x.lexpp c p)
  calc (10 : ℚ) ^ x.exp = 10 ^ x.lexpp c p * c.B ^ (p - 1) := h2.symm
    _ ≤ 10 ^ x.lexpp c p * x.mantp c p := mul_le_mul_of_nonneg_left h4 h5.le
    _ = _ := mul_comm _ _

theorem WF.absp_pos {c : Cfg} {x : DW} (h : WF c x) (hz : x.isZero = false) {p : ℕ} (hp1 : 1 ≤ p) (hp : p ≤ c.N) :
    0 < x.absp c p := lt_of_lt_of_le (p10_pos _) (h.absp_ge hz hp1 hp)

/-- The first `p` limbs against the whole number. -/
theorem WF.lt_absp_rel {c : Cfg} {x : DW} (h : WF c x) (hz : x.isZero = false) {p : ℕ} (hp1 : 1 ≤ p) (hp : p ≤ c.N) :
    |x.val c| < x.absp c p * (1 + eta c p) := by
  have h1 := h.lt_absp hp
  have h2 := h.absp_ge hz hp1 hp
  rw [lexpp_eq] at h1
  have := mul_le_mul_of_nonneg_right h2 (eta_pos c p).le
  linarith

/-- A "one" as the code recognises it, seen through `p` limbs. -/
theorem isOneSN_absp {c : Cfg} {x : DW} (hx : WF c x) (hz : x.isZero = false) (h : isOneSN c x = true) {p : ℕ} (hp1 : 2 ≤ p)
    (hp : p ≤ c.N) : 1 - eta c p / 50 ≤ x.absp c p ∧ x.absp c p ≤ 1 := by
  have he := eta_pos c p
  have hle := hx.absp_le hp
  have hlt := hx.lt_absp hp
  rcases isOneSN_spec hx h with ⟨h1, h2⟩ | ⟨h1, h2⟩
  · have h3 := hx.absp_ge hz (by omega) hp
    rw [h2] at h3
    simp only [zpow_zero] at h3
    constructor <;> linarith
  · rw [lexpp_eq, h1, h2] at hlt
    rw [h1] at hle
    have hnl := (nearOne_lt c).1
    have hed : (10 : ℚ) ^ (-(c.ed : ℤ)) ≤ 1 / 100 := by
      have h : (2 : ℤ) ≤ c.ed := by
        have : 2 ≤ c.ed := by (unfold Cfg.ed; cases c.L <;> decide)
        exact_mod_cast this
      calc (10 : ℚ) ^ (-(c.ed : ℤ)) ≤ 10 ^ (-2 : ℤ) := zpow_le_zpow_right₀ (by norm_num) (by linarith)
        _ = _ := by norm_num
    have h4 : (10 : ℚ) ^ (-((c.ed : ℤ) * c.N)) ≤ eta c p * 10 ^ (-(c.ed : ℤ)) := by
      unfold eta
      rw [← zpow_add₀ (by norm_num)]
      apply zpow_le_zpow_right₀ (by norm_num)
      have hpN : (p : ℤ) ≤ c.N := by exact_mod_cast hp
      have hed0 : (0 : ℤ) ≤ c.ed := by positivity
      nlinarith
    have h5 := mul_le_mul_of_nonneg_left hed he.le
    unfold nearOne at hlt
    constructor <;> linarith

/-- Multiplication at any precision: the first `p` limbs of the result against the product of the first `p` limbs of
    the operands. -/
theorem mul_rel {c : Cfg} {u v : DW} (hu : WF c u) (hv : WF c v) (huz : u.isZero = false) (hvz : v.isZero = false) {p : ℕ}
    (hpp : p = min u.prec v.prec) (hok : MulOk c p)
    (hlo : -(c.maxExp : ℤ) < u.exp + v.exp) (hhi : u.exp + v.exp < c.maxExp) :
    let r := mulAssign c u v
    WF c r ∧ r.isZero = false ∧ r.neg = (u.neg != v.neg) ∧ (r.prec = u.prec ∨ r.prec = v.prec) ∧
    r.absp c p * (1 - eta c p / 50) ≤ u.absp c p * v.absp c p ∧
    u.absp c p * v.absp c p < r.absp c p * (1 + eta c p) := by
  intro r
  have hp2 : 2 ≤ p := by have := hu.prec2; have := hv.prec2; omega
  have hpN : p ≤ c.N := by have := hu.precN; omega
  have he := eta_pos c p
  have he1 := eta_le (c := c) hp2
  have hua := hu.absp_pos huz (p := p) (by omega) hpN
  have hva := hv.absp_pos hvz (p := p) (by omega) hpN
  have hr : r = mulAssign c u v := rfl
  rcases mulAssign_cases (c := c) huz hvz with ⟨h1, h2⟩ | ⟨h1, h1', h2⟩ | ⟨-, -, h, -⟩ | ⟨-, -, -, h, -⟩ | ⟨-, -, -, -, h2⟩
  · obtain ⟨a1, a2⟩ := isOneSN_absp hu huz h1 hp2 hpN
    have hw : WF c r := by rw [hr, h2]; exact ⟨hv.len, hv.valid, hv.dvd, hv.prec2, hv.precN, hv.lead⟩
    have hra : r.absp c p = v.absp c p := by rw [hr, h2]; rfl
    refine ⟨hw, by rw [hr, h2]; exact hvz, by rw [hr, h2], Or.inr (by rw [hr, h2]), ?_, ?_⟩
    · rw [hra, mul_comm]; exact mul_le_mul_of_nonneg_right a1 hva.le
    · rw [hra]; nlinarith
  · obtain ⟨a1, a2⟩ := isOneSN_absp hv hvz h1' hp2 hpN
    have hw : WF c r := by rw [hr, h2]; exact ⟨hu.len, hu.valid, hu.dvd, hu.prec2, hu.precN, hu.lead⟩
    have hra : r.absp c p = u.absp c p := by rw [hr, h2]; rfl
    refine ⟨hw, by rw [hr, h2]; exact huz, by rw [hr, h2], Or.inl (by rw [hr, h2]), ?_, ?_⟩
    · rw [hra]; exact mul_le_mul_of_nonneg_left a1 hua.le
    · rw [hra]; nlinarith
  · omega
  · omega
  · rw [← hpp] at h2
    have hu' : WF c { u with neg := false } := ⟨hu.len, hu.valid, hu.dvd, hu.prec2, hu.precN, hu.lead⟩
    obtain ⟨b1, b2, b3, b4, b5, b6, b7⟩ := mulDispatch_val (u := { u with neg := false }) (v := v) hu' hv huz hvz hpN hok
      (dvd_add hu.dvd hv.dvd) (rfl : u.exp + v.exp = _)
    set s := mulDispatch c p { u with neg := false, exp := u.exp + v.exp } v with hs
    have hw : WF c r := by rw [hr, h2]; exact ⟨b1.len, b1.valid, b1.dvd, b1.prec2, b1.precN, b1.lead⟩
    have hra : r.absp c p = s.absp c p := by rw [hr, h2]; rfl
    change s.absp c p ≤ u.absp c p * v.absp c p at b6
    change u.absp c p * v.absp c p < s.absp c p + 10 ^ s.lexpp c p at b7
    have hsp := b1.absp_ge b2 (p := p) (by omega) hpN
    have hsp0 := b1.absp_pos b2 (p := p) (by omega) hpN
    refine ⟨hw, by rw [hr, h2]; exact b2, by rw [hr, h2], Or.inl (by rw [hr, h2]; exact b4), ?_, ?_⟩
    · rw [hra]; nlinarith
    · rw [hra]; rw [lexpp_eq] at b7
      have := mul_le_mul_of_nonneg_right hsp he.le
      linarith

/-- An exponent determined by the magnitude: a number between 1/2 and 2. -/
theorem exp_near_one {c : Cfg} {x : DW} (h : WF c x) {p : ℕ} (hz : x.isZero = false) (hp1 : 1 ≤ p) (hp : p ≤ c.N)
    (h1 : 1 / 2 < x.absp c p) (h2 : x.absp c p < 2) : x.exp = 0 ∨ x.exp = -(c.ed : ℤ) := by
  have a1 := h.absp_ge hz hp1 hp
  have a2 := h.abs_lt
  have a3 := h.absp_le hp
  have hed : 2 ≤ c.ed := by unfold Cfg.ed; cases c.L <;> decide
  have b1 : x.exp ≤ 0 := by
    by_contra hc
    have : (10 : ℚ) ^ (1 : ℤ) ≤ 10 ^ x.exp := zpow_le_zpow_right₀ (by norm_num) (by omega)
    norm_num at this; linarith
  have b2 : 0 ≤ x.exp + c.ed := by
    by_contra hc
    have : (10 : ℚ) ^ (x.exp + c.ed) ≤ 10 ^ (-1 : ℤ) := zpow_le_zpow_right₀ (by norm_num) (by omega)
    norm_num at this; linarith
  obtain ⟨k, hk⟩ := h.dvd
  have hedp : (0 : ℤ) < c.ed := by omega
  have k1 : k ≤ 0 := by
    by_contra hc; have : 0 < (c.ed : ℤ) * k := by apply mul_pos hedp; omega
    omega
  have k2 : -1 ≤ k := by
    by_contra hc
    have : (c.ed : ℤ) * k ≤ c.ed * (-2) := mul_le_mul_of_nonneg_left (by omega) hedp.le
    omega
  rcases (show k = 0 ∨ k = -1 by omega) with rfl | rfl
  · left; rw [hk]; ring
  · right; rw [hk]; ring

/-- `2 - t` for t near 1, at the precision of t. -/
theorem two_sub {c : Cfg} {t : DW} (ht : WF c t) (htz : t.isZero = false) (htn : t.neg = false)
    (h1 : 1 / 2 < t.absp c t.prec) (h2 : t.absp c t.prec < 19 / 10) :
    let r := subAssign c (two c) t
    WF c r ∧ r.isZero = false ∧ r.neg = false ∧ r.prec = c.N ∧
    2 - t.absp c t.prec ≤ |r.val c| ∧ |r.val c| < 2 - t.absp c t.prec + eta c t.prec := by
  intro r
  have hr : r = (addAssign c (two c).negate t).negate := rfl
  set p := t.prec with hp
  have hp2 := ht.prec2
  have hpN := ht.precN
  rw [← hp] at hp2 hpN
  have h3 := c.three_le_N
  have hed := c.ed_pos
  have h2z : (two c).isZero = false := isZero_false_of_val (two_full c).toWF (by rw [two_val]; norm_num)
  have hu : Full c (two c).negate := negate_full (two_full c)
  have huz : (two c).negate.isZero = false := by rw [negate_isZero]; exact h2z
  have hun : (two c).negate.neg = true := by rw [negate_neg h2z]; rfl
  have hue : (two c).negate.exp = 0 := by rw [negate_exp]; rfl
  have hup : (two c).negate.prec = c.N := hu.full
  have hud : (two c).negate.data = (two c).data := by unfold negate; split <;> rfl
  have huv : |(two c).negate.val c| = 2 := by rw [negate_val c (two_full c).toWF, two_val]; norm_num
  set u := (two c).negate with hudef
  have hte := exp_near_one ht htz (p := p) (by omega) hpN h1 (by linarith)
  have hmin : min u.prec t.prec = p := by rw [hup, ← hp]; omega
  -- the tail of two is zero
  have htail : limbsVal c.B (u.data.drop p) = 0 := by
    apply limbsVal_eq_zero
    intro d hd
    rw [hud] at hd
    have e : (two c).data = [2] ++ List.replicate (c.N - 1) 0 := by
      unfold two fromLst; simp [List.take_of_length_le (show ([2] : List ℕ).length ≤ c.N by simp; omega)]
    rw [e, List.drop_append] at hd
    have : ([2] : List ℕ).drop p = [] := List.drop_of_length_le (by simp; omega)
    rw [this, List.nil_append] at hd
    exact (List.mem_replicate.mp (List.mem_of_mem_drop hd)).2
  have hua : u.absp c p = 2 := by
    have := abs_val_split hu.len hpN
    rw [htail, huv] at this
    simp only [Nat.cast_zero, zero_mul, add_zero] at this
    exact this.symm
  -- the branch taken
  obtain ⟨k, hk01, hk⟩ : ∃ k : ℕ, k ≤ 1 ∧ t.exp = -((k : ℤ) * c.ed) := by
    rcases hte with h | h
    · exact ⟨0, by omega, by rw [h]; simp⟩
    · exact ⟨1, by omega, by rw [h]; simp⟩
  have hadd : addAssign c u t = addOpp c p (k : ℤ) u t := by
    unfold addAssign
    rw [if_neg (by rw [huz]; simp)]
    simp only [hmin, htz, hue, hk]
    have e1 : (0 : ℤ) - -((k : ℤ) * c.ed) = ((k * c.ed : ℕ) : ℤ) := by push_cast; ring
    rw [e1]
    have e2 : ¬ ((p : ℤ) * c.ed ≤ ((k * c.ed : ℕ) : ℤ)) := by
      push_cast
      have : ((k : ℤ)) * c.ed ≤ 1 * c.ed := mul_le_mul_of_nonneg_right (by omega) (by positivity)
      have : (2 : ℤ) * c.ed ≤ p * c.ed := mul_le_mul_of_nonneg_right (by omega) (by positivity)
      have : (0 : ℤ) < c.ed := by exact_mod_cast hed
      linarith
    have e3 : (0 : ℤ) ≤ ((k * c.ed : ℕ) : ℤ) := by positivity
    rw [if_neg (by simp only [Bool.false_eq_true, false_or, not_and]; intro _; exact e2), if_neg (by omega)]
    rw [if_neg (by rw [hun, htn]; simp), if_pos e3]
    rw [Int.natAbs_natCast, Nat.mul_div_cancel _ hed]
  have hue' : u.exp - t.exp = (k : ℤ) * c.ed := by rw [hue, hk]; ring
  have hab : t.absp c p < u.absp c p := by rw [hua]; linarith
  rcases addOpp_cases hu.toWF ht huz htz (p := p) (by omega) hpN hue' (by simp; omega) with
    ⟨w, k', a1, a2, a3, a4, a5, a6, a7, a8, a9, a10⟩ | ⟨w, k', a1, a2, a3, a4, a5, a6, a7, a8, a9, a10⟩
  · have hkk : k' = k := by exact_mod_cast a3.symm
    subst hkk
    have hne : w.mantp c p ≠ 0 := by rw [a9]; omega
    obtain ⟨j1, j2, j3, j4, -, j6⟩ := justify_spec a2 hpN hne
    rw [← a1, ← hadd] at j1 j2 j3 j4 j6
    have hrn : r.neg = false := by rw [hr, negate_neg j6, j2, a6, hun]; rfl
    have hrv : |r.val c| = |w.val c| := by rw [hr, negate_val c j1, abs_neg, j4]
    have hwa : |w.val c| = w.absp c p := by
      rw [abs_val_split a2.len hpN, a10, htail]; simp
    obtain ⟨d1, d2⟩ := aligned_diff (u := u) (v := t) a4 a8.le
    have hwl : w.lexpp c p = u.lexpp c p := by unfold lexpp; rw [a5]
    have hwa2 : w.absp c p = ((u.mantp c p - t.mantp c p / c.B ^ k' : ℕ) : ℚ) * 10 ^ u.lexpp c p := by
      unfold absp; rw [a9, hwl]
    have hl : (10 : ℚ) ^ u.lexpp c p = eta c p := by rw [lexpp_eq, hue]; simp
    rw [← hwa2, hua] at d1 d2
    rw [hl] at d2
    refine ⟨by rw [hr]; exact negate_WF j1, by rw [hr, negate_isZero]; exact j6, hrn, by rw [hr, negate_prec, j3, a7, hup], ?_, ?_⟩
    · rw [hrv, hwa]; exact d1
    · rw [hrv, hwa]; exact d2
  · exfalso
    have hk0 : k = 0 ∧ k' = 0 := by omega
    obtain ⟨rfl, rfl⟩ := hk0
    simp only [pow_zero, Nat.div_one] at a8
    have : u.absp c p ≤ t.absp c p := by
      unfold absp
      have : u.lexpp c p = t.lexpp c p := by unfold lexpp; rw [hue, hk]; simp
      rw [this]
      exact mul_le_mul_of_nonneg_right (by exact_mod_cast a8) (p10_pos _).le
    linarith

theorem eta_num1 {η : ℚ} (hη0 : 0 < η) (hη : η ≤ 1 / 100) : (1 + η) * (1 + η) * (1 - 2 * η) ≤ 1 := by
  nlinarith [mul_pos hη0 hη0, mul_pos (mul_pos hη0 hη0) hη0]

theorem eta_num2 {η d : ℚ} (hη0 : 0 < η) (hη : η ≤ 1 / 100) (h0 : 0 ≤ d ^ 2) (h : d ^ 2 ≤ 1 / 1000) :
    1 - d ^ 2 - 21 / 10 * η ≤ (1 - d ^ 2 - η / 40) * (1 - 2 * η) := by
  generalize d ^ 2 = q at *
  nlinarith [mul_pos hη0 hη0, mul_nonneg h0 hη0.le]

theorem eta_num3 {η d : ℚ} (hη0 : 0 < η) (hη : η ≤ 1 / 100) (h0 : 0 ≤ d ^ 2) :
    (1 - d ^ 2 + 306 / 100 * η) * (1 + 103 / 100 * η) ≤ 1 + 21 / 5 * η := by
  generalize d ^ 2 = q at *
  have : η * η ≤ 1 / 100 * η := mul_le_mul_of_nonneg_right hη hη0.le
  nlinarith [mul_nonneg h0 hη0.le]

theorem eta_num4 {η : ℚ} (hη0 : 0 < η) (hη : η ≤ 1 / 100) : (1 : ℚ) + η ≤ (1 - η / 50) * (1 + 103 / 100 * η) := by
  have : η * η ≤ 1 / 100 * η := mul_le_mul_of_nonneg_right hη hη0.le
  nlinarith

theorem eta_num5 {η d : ℚ} (hη0 : 0 < η) (dl : -(1 / 40) ≤ d) (dh : d ≤ 1 / 100) :
    1 - d ^ 2 - η / 40 ≤ (1 + d) * (1 - d - (1 + d) * η / 45) := by
  have e : (1 + d) * (1 + d) ≤ 1021 / 1000 := by nlinarith
  have := mul_le_mul_of_nonneg_right e hη0.le
  have e2 : (1 + d) * (1 - d - (1 + d) * η / 45) = 1 - d ^ 2 - (1 + d) * (1 + d) * η / 45 := by ring
  rw [e2]; linarith

theorem eta_num6 {η d : ℚ} (hη0 : 0 < η) (dl : -(1 / 40) ≤ d) (dh : d ≤ 1 / 100) :
    (1 + d) * (1 - d + (1 + d) * (2 * η) + η) ≤ 1 - d ^ 2 + 306 / 100 * η := by
  have e : (1 + d) * (1 + d) * 2 + (1 + d) ≤ 306 / 100 := by nlinarith
  have := mul_le_mul_of_nonneg_right e hη0.le
  have e2 : (1 + d) * (1 - d + (1 + d) * (2 * η) + η) = 1 - d ^ 2 + ((1 + d) * (1 + d) * 2 + (1 + d)) * η := by ring
  rw [e2]; linarith

/-- The numerics of one Newton step. -/
theorem newton_step {a y yp xp tp r rp zp z η δ : ℚ} (hη0 : 0 < η) (hη : η ≤ 1 / 100) (ha : 0 < a) (hyp : 0 < yp) (hxp : 0 < xp)
    (htp : 0 < tp) (hzp : 0 < zp)
    (h1 : yp ≤ y) (h2 : y < yp * (1 + η)) (h3 : xp ≤ a) (h4 : a < xp * (1 + η))
    (h5 : tp * (1 - η / 50) ≤ yp * xp) (h6 : yp * xp < tp * (1 + η))
    (h7 : 2 - tp ≤ r) (h8 : r < 2 - tp + η) (h9 : rp ≤ r) (h10 : r < rp * (1 + η))
    (h11 : zp * (1 - η / 50) ≤ yp * rp) (h12 : yp * rp < zp * (1 + η))
    (h13 : zp ≤ z) (h14 : z < zp * (1 + η)) (hδ0 : δ ≤ 1 / 100) (hδ : |y * a - 1| ≤ δ) :
    z * a - 1 ≤ 21 / 5 * η ∧ 1 - z * a ≤ (δ + 51 / 50 * η) ^ 2 + 21 / 10 * η := by
  obtain ⟨k1, k2⟩ := abs_le.mp hδ
  -- d = yp * a - 1
  obtain ⟨d, hd⟩ : ∃ d, yp * a = 1 + d := ⟨yp * a - 1, by ring⟩
  have d1 : d ≤ δ := by
    have : yp * a ≤ y * a := mul_le_mul_of_nonneg_right h1 ha.le
    linarith
  have d2 : -(δ + 51 / 50 * η) ≤ d := by
    have : y * a ≤ yp * (1 + η) * a := mul_le_mul_of_nonneg_right h2.le ha.le
    have e : yp * (1 + η) * a = (1 + d) * (1 + η) := by rw [← hd]; ring
    rw [e] at this
    nlinarith
  have dsq : d ^ 2 ≤ (δ + 51 / 50 * η) ^ 2 := by
    apply sq_le_sq'
    · exact d2
    · nlinarith
  have dl : -(1 / 40) ≤ d := by nlinarith
  have dh : d ≤ 1 / 100 := by linarith
  -- tp bounds
  have t1 : tp ≤ (1 + d) * (1 + η / 45) := by
    have : yp * xp ≤ yp * a := mul_le_mul_of_nonneg_left h3 hyp.le
    rw [hd] at this
    have h : tp * (1 - η / 50) ≤ 1 + d := le_trans h5 this
    have e : (1 : ℚ) ≤ (1 - η / 50) * (1 + η / 45) := by nlinarith
    have : tp * 1 ≤ tp * ((1 - η / 50) * (1 + η / 45)) := mul_le_mul_of_nonneg_left e htp.le
    have : tp * (1 - η / 50) * (1 + η / 45) ≤ (1 + d) * (1 + η / 45) := mul_le_mul_of_nonneg_right h (by linarith)
    linarith
  have t2 : (1 + d) * (1 - 2 * η) ≤ tp := by
    have a1 : yp * a ≤ yp * (xp * (1 + η)) := mul_le_mul_of_nonneg_left h4.le hyp.le
    have a2 : yp * xp * (1 + η) ≤ tp * (1 + η) * (1 + η) := mul_le_mul_of_nonneg_right h6.le (by linarith)
    have a3 : 1 + d ≤ tp * ((1 + η) * (1 + η)) := by rw [← hd]; linarith
    have a4 := eta_num1 hη0 hη
    have a5 : (1 + d) * (1 - 2 * η) ≤ tp * ((1 + η) * (1 + η)) * (1 - 2 * η) := mul_le_mul_of_nonneg_right a3 (by linarith)
    have a6 : tp * ((1 + η) * (1 + η) * (1 - 2 * η)) ≤ tp * 1 := mul_le_mul_of_nonneg_left a4 htp.le
    linarith
  have hdp : 0 < 1 + d := by linarith
  -- r bounds
  have r1 : 1 - d - (1 + d) * η / 45 ≤ r := by linarith
  have r2 : r ≤ 1 - d + (1 + d) * (2 * η) + η := by linarith
  -- (1+d) r
  set s := (1 + d) * r with hs
  have s1 : 1 - d ^ 2 - η / 40 ≤ s := le_trans (eta_num5 hη0 dl dh) (mul_le_mul_of_nonneg_left r1 hdp.le)
  have s2 : s ≤ 1 - d ^ 2 + 306 / 100 * η := le_trans (mul_le_mul_of_nonneg_left r2 hdp.le) (eta_num6 hη0 dl dh)
  have hd2 : d ^ 2 ≤ 1 / 1000 := by
    have := sq_le_sq' dl (show d ≤ 1 / 40 by linarith)
    norm_num at this; linarith
  have hd20 : 0 ≤ d ^ 2 := sq_nonneg d
  -- z a
  have hza1 : zp * a ≤ z * a := mul_le_mul_of_nonneg_right h13 ha.le
  have hza2 : z * a ≤ zp * a * (1 + η) := by
    calc z * a ≤ zp * (1 + η) * a := mul_le_mul_of_nonneg_right h14.le ha.le
      _ = _ := by ring
  have c1 : zp * a * (1 - η / 50) ≤ s := by
    have a1 : zp * (1 - η / 50) ≤ yp * r := le_trans h11 (mul_le_mul_of_nonneg_left h9 hyp.le)
    have a2 := mul_le_mul_of_nonneg_right a1 ha.le
    calc zp * a * (1 - η / 50) = zp * (1 - η / 50) * a := by ring
      _ ≤ yp * r * a := a2
      _ = yp * a * r := by ring
      _ = s := by rw [hd]
  have c2 : s ≤ zp * a * ((1 + η) * (1 + η)) := by
    have a1 : yp * r ≤ yp * (rp * (1 + η)) := mul_le_mul_of_nonneg_left h10.le hyp.le
    have a2 : yp * rp * (1 + η) ≤ zp * (1 + η) * (1 + η) := mul_le_mul_of_nonneg_right h12.le (by linarith)
    have a3 := mul_le_mul_of_nonneg_right (show yp * r ≤ zp * (1 + η) * (1 + η) by linarith) ha.le
    calc s = yp * a * r := by rw [hd]
      _ = yp * r * a := by ring
      _ ≤ zp * (1 + η) * (1 + η) * a := a3
      _ = _ := by ring
  have hzap : 0 < zp * a := mul_pos hzp ha
  constructor
  · have a1 : zp * a * (1 + η) ≤ zp * a * ((1 - η / 50) * (1 + 103 / 100 * η)) :=
      mul_le_mul_of_nonneg_left (eta_num4 hη0 hη) hzap.le
    have a2 : zp * a * (1 - η / 50) * (1 + 103 / 100 * η) ≤ s * (1 + 103 / 100 * η) := mul_le_mul_of_nonneg_right c1 (by linarith)
    have a3 : s * (1 + 103 / 100 * η) ≤ (1 - d ^ 2 + 306 / 100 * η) * (1 + 103 / 100 * η) := mul_le_mul_of_nonneg_right s2 (by linarith)
    have a4 := eta_num3 (d := d) hη0 hη hd20
    have hsq : 0 ≤ (δ + 51 / 50 * η) ^ 2 := sq_nonneg _
    linarith
  · have a5 : s * (1 - 2 * η) ≤ zp * a * ((1 + η) * (1 + η)) * (1 - 2 * η) := mul_le_mul_of_nonneg_right c2 (by linarith)
    have a6 : zp * a * ((1 + η) * (1 + η) * (1 - 2 * η)) ≤ zp * a * 1 := mul_le_mul_of_nonneg_left (eta_num1 hη0 hη) hzap.le
    have a7 : (1 - d ^ 2 - η / 40) * (1 - 2 * η) ≤ s * (1 - 2 * η) := mul_le_mul_of_nonneg_right s1 (by linarith)
    have a8 := eta_num2 hη0 hη hd20 hd2
    linarith

/-- All the precisions the Newton loops use are served exactly by the limb product. -/
def MulOkAll (c : Cfg) : Prop := c.N < 1793 ∧ (c.L = .u16 → c.N ≤ 42)

instance (c : Cfg) : Decidable (MulOkAll c) := by unfold MulOkAll; infer_instance

theorem MulOkAll.ok {c : Cfg} (h : MulOkAll c) {p : ℕ} (h1 : 1 ≤ p) (h2 : p ≤ c.N) : MulOk c p :=
  ⟨h1, by have := h.1; omega, fun hL => Or.inl (by have := h.2 hL; omega)⟩

/-- The working precision of a Newton round. -/
theorem round_prec {c : Cfg} (D : ℕ) : ∃ q : ℕ, 2 ≤ q ∧ q ≤ c.N ∧
    (∀ x : DW, precision c x ((D : ℤ) * 2 + min ((c.ed : ℤ) + 1) 9) = { x with prec := q }) ∧
    eta c q ≤ (10 : ℚ) ^ (-(2 * (D : ℤ) + 1)) + eta c c.N := by
  have h3 := c.three_le_N
  have hed := c.ed_pos
  have hedc : c.ed = 2 ∨ c.ed = 4 ∨ c.ed = 8 := by unfold Cfg.ed; cases c.L <;> decide
  set np : ℤ := (D : ℤ) * 2 + min ((c.ed : ℤ) + 1) 9 with hnp
  have hnp0 : 0 ≤ np := by omega
  set need : ℤ := np.tdiv c.ed + (if np.tmod c.ed ≠ 0 then 1 else 0) with hneed
  have hneed2 : np ≤ c.ed * need := by
    have h1 := Int.mul_tdiv_add_tmod np c.ed
    have h2 : np.tmod c.ed < c.ed := Int.tmod_lt_of_pos _ (by exact_mod_cast hed)
    have h4 : 0 ≤ np.tmod c.ed := Int.tmod_nonneg _ hnp0
    rw [hneed]
    split
    · rw [mul_add, mul_one]; linarith
    · next h => rw [add_zero]; push_neg at h; linarith
  refine ⟨(min (c.N : ℤ) (max need 2)).toNat, by omega, by omega, fun x => rfl, ?_⟩
  set q := (min (c.N : ℤ) (max need 2)).toNat with hq
  by_cases hc : (c.N : ℤ) ≤ max need 2
  · have : q = c.N := by omega
    rw [this]
    have := p10_pos (-(2 * (D : ℤ) + 1))
    linarith
  · have hqn : need ≤ q := by omega
    have : eta c q ≤ (10 : ℚ) ^ (-(2 * (D : ℤ) + 1)) := by
      unfold eta
      apply zpow_le_zpow_right₀ (by norm_num)
      have h5 : (c.ed : ℤ) * need ≤ c.ed * q := mul_le_mul_of_nonneg_left hqn (by positivity)
      have h6 : min ((c.ed : ℤ) + 1) 9 = c.ed + 1 := by omega
      rw [h6] at hnp
      rw [mul_sub]
      linarith
    have := eta_pos c c.N
    linarith

/-- A positive well-formed object. -/
structure Posi (c : Cfg) (x : DW) : Prop extends WF c x where
  nz : x.isZero = false
  nn : x.neg = false

theorem Posi.setPrec {c : Cfg} {x : DW} (h : Posi c x) {q : ℕ} (h2 : 2 ≤ q) (hN : q ≤ c.N) : Posi c { x with prec := q } :=
  ⟨⟨h.len, h.valid, h.dvd, h2, hN, h.lead⟩, h.nz, h.nn⟩

/-- One Newton round. -/
theorem invStep_spec {c : Cfg} (hok : MulOkAll c) {x y : DW} (hx : Posi c x) (hy : Posi c y) (hm : 2 * (c.ed : ℤ) < c.maxExp)
    (hlo : -(c.maxExp : ℤ) < x.exp) (hlo2 : x.exp + 3 * c.ed < c.maxExp) (hhi : x.exp < c.maxExp) {δ : ℚ} (hδ0 : δ ≤ 1 / 100)
    (hδ : |(|y.val c| * |x.val c|) - 1| ≤ δ) (D : ℕ) :
    let s := invStep c D y x
    let η := (10 : ℚ) ^ (-(2 * (D : ℤ) + 1)) + eta c c.N
    Posi c s.1 ∧ (∃ q, 2 ≤ q ∧ q ≤ c.N ∧ s.2 = { x with prec := q }) ∧
    |s.1.val c| * |x.val c| - 1 ≤ 21 / 5 * η ∧ 1 - |s.1.val c| * |x.val c| ≤ (δ + 51 / 50 * η) ^ 2 + 21 / 10 * η := by
  intro s η
  obtain ⟨q, q2, qN, hq, hqe⟩ := round_prec (c := c) D
  have hη0 := eta_pos c q
  have hη1 := eta_le (c := c) q2
  have hyp := hy.setPrec q2 qN
  have hxp := hx.setPrec q2 qN
  have hs : s = (mulAssign c { y with prec := q } (subAssign c (two c) (mulAssign c { y with prec := q } { x with prec := q })),
      { x with prec := q }) := by
    show invStep c D y x = _
    unfold invStep
    have hmn : ((min (c.ed + 1) 9 : ℕ) : ℤ) = min ((c.ed : ℤ) + 1) 9 := by push_cast; rfl
    simp only [hmn, hq]
  obtain ⟨Y, hY⟩ : ∃ Y : DW, Y = { y with prec := q } := ⟨_, rfl⟩
  obtain ⟨X, hX⟩ : ∃ X : DW, X = { x with prec := q } := ⟨_, rfl⟩
  have hYv : |Y.val c| = |y.val c| := by rw [hY]; rfl
  have hXv : |X.val c| = |x.val c| := by rw [hX]; rfl
  have hYe : Y.exp = y.exp := by rw [hY]
  have hXe : X.exp = x.exp := by rw [hX]
  have hYp : Y.prec = q := by rw [hY]
  have hXp : X.prec = q := by rw [hX]
  rw [← hY, ← hX] at hs
  rw [← hY] at hyp
  rw [← hX] at hxp
  obtain ⟨k1, k2⟩ := abs_le.mp hδ
  have hed : 2 ≤ c.ed := by unfold Cfg.ed; cases c.L <;> decide
  -- exponents
  have e1 := hyp.toWF.abs_ge hyp.nz
  have e2 := hyp.toWF.abs_lt
  have e3 := hxp.toWF.abs_ge hxp.nz
  have e4 := hxp.toWF.abs_lt
  have ex1 : Y.exp + X.exp ≤ 0 := by
    by_contra hc
    have : (10 : ℚ) ^ (1 : ℤ) ≤ 10 ^ (Y.exp + X.exp) := zpow_le_zpow_right₀ (by norm_num) (by omega)
    rw [zpow_add₀ (by norm_num)] at this
    have h := mul_le_mul e1 e3 (p10_pos _).le (abs_nonneg _)
    rw [hYv, hXv] at h
    norm_num at this; linarith
  have ex2 : 0 ≤ Y.exp + X.exp + 2 * c.ed := by
    by_contra hc
    have : (10 : ℚ) ^ (Y.exp + c.ed + (X.exp + c.ed)) ≤ 10 ^ (-1 : ℤ) := zpow_le_zpow_right₀ (by norm_num) (by omega)
    rw [zpow_add₀ (by norm_num)] at this
    have h := mul_le_mul e2.le e4.le (abs_nonneg _) (p10_pos _).le
    rw [hYv, hXv] at h
    norm_num at this; linarith
  -- t = y * x
  obtain ⟨t1, t2, t3, t4, t5, t6⟩ := mul_rel hyp.toWF hxp.toWF hyp.nz hxp.nz (p := q) (by rw [hYp, hXp, Nat.min_self])
    (hok.ok (by omega) qN) (by omega) (by omega)
  set t := mulAssign c Y X with ht
  have htp : t.prec = q := by rcases t4 with h | h <;> rw [h] <;> assumption
  have htn : t.neg = false := by rw [t3, hyp.nn, hxp.nn]; rfl
  have y0 := hyp.toWF.absp_pos hyp.nz (p := q) (by omega) qN
  have x0 := hxp.toWF.absp_pos hxp.nz (p := q) (by omega) qN
  have tp0 := t1.absp_pos t2 (p := q) (by omega) qN
  have y1 := hyp.toWF.absp_le qN
  have x1 := hxp.toWF.absp_le qN
  have y2 := hyp.toWF.lt_absp_rel hyp.nz (p := q) (by omega) qN
  have x2 := hxp.toWF.lt_absp_rel hxp.nz (p := q) (by omega) qN
  have hyx : Y.absp c q * X.absp c q ≤ 101 / 100 := by
    have := mul_le_mul y1 x1 x0.le (abs_nonneg _)
    rw [hYv, hXv] at this; linarith
  have hyx2 : 9 / 10 ≤ Y.absp c q * X.absp c q := by
    have h := mul_le_mul y2.le x2.le (abs_nonneg _) (by positivity)
    rw [hYv, hXv] at h
    have h' : (1 + eta c q) * (1 + eta c q) ≤ 1021 / 1000 := by nlinarith
    have h'' := mul_le_mul_of_nonneg_left h' (mul_pos y0 x0).le
    nlinarith
  have tl : 1 / 2 < t.absp c t.prec := by rw [htp]; nlinarith
  have th : t.absp c t.prec < 19 / 10 := by rw [htp]; nlinarith
  obtain ⟨r1, r2, r3, r4, r5, r6⟩ := two_sub t1 t2 htn tl th
  set r := subAssign c (two c) t with hr
  rw [htp] at r5 r6 tl th
  have rp0 := r1.absp_pos r2 (p := q) (by omega) qN
  have rr1 := r1.absp_le qN
  have rr2 := r1.lt_absp_rel r2 (p := q) (by omega) qN
  have hrh : r.absp c q < 2 := by linarith
  have htu : t.absp c q ≤ 103 / 100 := by nlinarith
  have hrl : 1 / 2 < r.absp c q := by nlinarith
  have hre := exp_near_one r1 r2 (p := q) (by omega) qN hrl hrh
  obtain ⟨z1, z2, z3, z4, z5, z6⟩ := mul_rel hyp.toWF r1 hyp.nz r2 (p := q) (by rw [hYp, r4]; omega)
    (hok.ok (by omega) qN) (by omega) (by omega)
  set z := mulAssign c Y r with hz
  have zp0 := z1.absp_pos z2 (p := q) (by omega) qN
  have zz1 := z1.absp_le qN
  have zz2 := z1.lt_absp_rel z2 (p := q) (by omega) qN
  have hx0 : 0 < |X.val c| := lt_of_lt_of_le x0 x1
  obtain ⟨f1, f2⟩ := newton_step (δ := δ) hη0 hη1 hx0 y0 x0 tp0 zp0 y1 y2 x1 x2 t5 t6 r5 r6 rr1 rr2 z5 z6 zz1 zz2 hδ0
    (by rw [hYv, hXv]; exact hδ)
  rw [hXv] at f1 f2
  have hsz : s.1 = z := by rw [hs]
  have hδp : 0 ≤ δ := le_trans (abs_nonneg _) hδ
  rw [hsz]
  refine ⟨⟨z1, z2, by rw [z3, hyp.nn, r3]; rfl⟩, ⟨q, q2, qN, by rw [hs, hX]⟩, by linarith, ?_⟩
  have : (δ + 51 / 50 * eta c q) ^ 2 ≤ (δ + 51 / 50 * η) ^ 2 := by
    apply pow_le_pow_left₀ (by positivity)
    linarith
  linarith

/-- The closing inequality of the precision-doubling recursion. -/
theorem newton_close {E n : ℚ} (hE0 : 0 < E) (hE : E ≤ 1 / 10 ^ 5) (hn0 : 0 < n) (hn : n ≤ 1 / 10 ^ 4) :
    21 / 5 * (E ^ 2 / 10 + n) ≤ 43 / 100 * E ^ 2 + 43 / 10 * n ∧
    (43 / 100 * E + 43 / 10 * n + 51 / 50 * (E ^ 2 / 10 + n)) ^ 2 + 21 / 10 * (E ^ 2 / 10 + n) ≤
      43 / 100 * E ^ 2 + 43 / 10 * n := by
  constructor
  · nlinarith [mul_pos hE0 hE0]
  · have h1 : 43 / 100 * E + 43 / 10 * n + 51 / 50 * (E ^ 2 / 10 + n) ≤ 44 / 100 * E + 54 / 10 * n := by nlinarith
    have h2 : (43 / 100 * E + 43 / 10 * n + 51 / 50 * (E ^ 2 / 10 + n)) ^ 2 ≤ (44 / 100 * E + 54 / 10 * n) ^ 2 :=
      pow_le_pow_left₀ (by positivity) h1 2
    have h3 : E * n ≤ 1 / 10 ^ 5 * n := mul_le_mul_of_nonneg_right hE hn0.le
    have h4 : n * n ≤ 1 / 10 ^ 4 * n := mul_le_mul_of_nonneg_right hn hn0.le
    nlinarith [mul_pos hE0 hE0]

theorem eta_N_le (c : Cfg) : eta c c.N ≤ 1 / 10 ^ 4 := by
  unfold eta
  have h : (2 : ℤ) ≤ c.ed := by have : 2 ≤ c.ed := by (unfold Cfg.ed; cases c.L <;> decide)
                                exact_mod_cast this
  have h3 : (3 : ℤ) ≤ c.N := by exact_mod_cast c.three_le_N
  calc (10 : ℚ) ^ (-((c.ed : ℤ) * ((c.N : ℤ) - 1))) ≤ 10 ^ (-4 : ℤ) := by
        apply zpow_le_zpow_right₀ (by norm_num)
        nlinarith
    _ = _ := by norm_num

/-- The Newton loop. -/
theorem invLoop_spec {c : Cfg} (hok : MulOkAll c) (hm : 2 * (c.ed : ℤ) < c.maxExp) (limit : ℕ) :
    ∀ (n D : ℕ) (x y : DW), limit ≤ D + n → 5 ≤ D → Posi c x → Posi c y → -(c.maxExp : ℤ) < x.exp →
    x.exp + 3 * c.ed < c.maxExp → x.exp < c.maxExp →
    |(|y.val c| * |x.val c|) - 1| ≤ 43 / 100 * (10 : ℚ) ^ (-(D : ℤ)) + 43 / 10 * eta c c.N →
    Posi c (invLoop c limit D y x) ∧
    |(|(invLoop c limit D y x).val c| * |x.val c|) - 1| ≤ 43 / 100 * (10 : ℚ) ^ (-(limit : ℤ)) + 43 / 10 * eta c c.N := by
  intro n
  induction n with
  | zero =>
    intro D x y hl hD hx hy _ _ _ hy1
    have e : invLoop c limit D y x = y := by rw [invLoop]; rw [dif_neg (by omega)]
    rw [e]
    refine ⟨hy, le_trans hy1 ?_⟩
    have : (10 : ℚ) ^ (-(D : ℤ)) ≤ 10 ^ (-(limit : ℤ)) := zpow_le_zpow_right₀ (by norm_num) (by omega)
    linarith
  | succ n ih =>
    intro D x y hl hD hx hy h1 h2 h2' hy1
    by_cases hc : D < limit
    · have e : invLoop c limit D y x = invLoop c limit (D * 2) (invStep c D y x).1 (invStep c D y x).2 := by
        rw [invLoop]; rw [dif_pos ⟨hc, by omega⟩]
      have hE0 := p10_pos (-(D : ℤ))
      have hE : (10 : ℚ) ^ (-(D : ℤ)) ≤ 1 / 10 ^ 5 := by
        calc (10 : ℚ) ^ (-(D : ℤ)) ≤ 10 ^ (-5 : ℤ) := zpow_le_zpow_right₀ (by norm_num) (by omega)
          _ = _ := by norm_num
      have hn0 := eta_pos c c.N
      have hn := eta_N_le c
      obtain ⟨s1, ⟨q, q2, qN, hs2⟩, s3, s4⟩ := invStep_spec hok hx hy hm h1 h2 h2' (δ := _) (by nlinarith) hy1 D
      have hη : (10 : ℚ) ^ (-(2 * (D : ℤ) + 1)) = (10 ^ (-(D : ℤ))) ^ 2 / 10 := by
        rw [show -(2 * (D : ℤ) + 1) = -(D : ℤ) + -(D : ℤ) + (-1) by ring, zpow_add₀ (by norm_num), zpow_add₀ (by norm_num)]
        norm_num; ring
      have hη2 : (10 : ℚ) ^ (-((D * 2 : ℕ) : ℤ)) = (10 ^ (-(D : ℤ))) ^ 2 := by
        rw [show -((D * 2 : ℕ) : ℤ) = -(D : ℤ) + -(D : ℤ) by push_cast; ring, zpow_add₀ (by norm_num)]
        ring
      obtain ⟨c1, c2⟩ := newton_close hE0 hE hn0 hn
      rw [hη] at s3 s4
      rw [e]
      have hx' : Posi c (invStep c D y x).2 := by rw [hs2]; exact hx.setPrec q2 qN
      have hxe : (invStep c D y x).2.exp = x.exp := by rw [hs2]
      have hxv : (invStep c D y x).2.val c = x.val c := by rw [hs2]; rfl
      have := ih (D * 2) (invStep c D y x).2 (invStep c D y x).1 (by omega) (by omega) hx' s1 (by rw [hxe]; exact h1)
        (by rw [hxe]; exact h2) (by rw [hxe]; exact h2') (by
          rw [hxv, hη2, abs_le]
          constructor <;> linarith)
      rw [hxv] at this
      exact this
    · have e : invLoop c limit D y x = y := by rw [invLoop]; rw [dif_neg (by omega)]
      rw [e]
      refine ⟨hy, le_trans hy1 ?_⟩
      have : (10 : ℚ) ^ (-(D : ℤ)) ≤ 10 ^ (-(limit : ℤ)) := zpow_le_zpow_right₀ (by norm_num) (by omega)
      linarith

end WD
