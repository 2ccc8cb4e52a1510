import Verif.Proofs.Sqrt
import Verif.Proofs.Pow
import Verif.Proofs.DivNear
import Verif.Props.Misc
import Verif.Proofs.RootnNum
import Verif.Model.Rootn
/-
  One round of the Newton iteration of `calculate_rootn_inv`.
-/
namespace WD
open DW

/-- `y` stands for the k-th power of `r`, k ≥ 1: one rounding per multiplication. -/
structure PowerOf (c : Cfg) (q : ℕ) (r : ℚ) (k : ℕ) (y : DW) : Prop where
  posi : Posi c y
  prec : q ≤ y.prec
  lo : r ^ k * (1 - 3 * eta c q) ^ (k - 1) ≤ y.val c
  hi : y.val c ≤ r ^ k * (1 + 3 * eta c q) ^ (k - 1)

theorem PowerOf.mul {c : Cfg} (hok : MulOkAll c) {q p : ℕ} {r : ℚ} (hr : 0 < r) (q2 : 2 ≤ q) (hη1 : eta c q ≤ 1 / 10 ^ 4) (hpη : (p : ℚ) * (3 * eta c q) ≤ 1 / 2)
    (hm : 2 * (c.ed : ℤ) + 1 ≤ c.maxExp) (h1 : (10 : ℚ) ^ (-(c.maxExp : ℤ) + 2 * c.ed + 1) ≤ r ^ p) (h2 : r ^ p ≤ (10 : ℚ) ^ ((c.maxExp : ℤ) - 1))
    {a k : ℕ} {s y : DW} (hs : PowerOf c q r a s) (hy : PowerOf c q r k y) (ha : 1 ≤ a) (hk : 1 ≤ k) (hak : a + k ≤ p) :
    PowerOf c q r (a + k) (mulAssign c s y) := by
  obtain ⟨s1, s2, s3, s4⟩ := hs
  obtain ⟨y1, y2, y3, y4⟩ := hy
  have hη := eta_pos c q
  have s0 := s1.val_pos
  have y0 := y1.val_pos
  have ra := pow_pos hr a
  have rk := pow_pos hr k
  have e0 : 0 ≤ 1 - 3 * eta c q := by linarith
  have pa := pow_nonneg e0 (a - 1)
  have pk := pow_nonneg e0 (k - 1)
  have hlo : r ^ (a + k) * (1 - 3 * eta c q) ^ (a + k - 2) ≤ s.val c * y.val c := by
    have := mul_le_mul s3 y3 (by positivity) s0.le
    rw [show a + k - 2 = (a - 1) + (k - 1) by omega, pow_add, pow_add]
    linarith
  have hhi : s.val c * y.val c ≤ r ^ (a + k) * (1 + 3 * eta c q) ^ (a + k - 2) := by
    have := mul_le_mul s4 y4 y0.le (by positivity)
    rw [show a + k - 2 = (a - 1) + (k - 1) by omega, pow_add, pow_add]
    linarith
  have hrak := pow_pos hr (a + k)
  have hrp := pow_pos hr p
  obtain ⟨n1, n2⟩ := near_bounds (ε := 3 * eta c q) (P := p) (by linarith) (by linarith) hpη (n := a + k - 2) (by omega)
  obtain ⟨b1, b2⟩ := pow_between (q := r) (P := p) (j := a + k) (lo := (10 : ℚ) ^ (-(c.maxExp : ℤ) + 2 * c.ed + 1)) (hi := (10 : ℚ) ^ ((c.maxExp : ℤ) - 1)) hak
    (by rw [← zpow_zero (10 : ℚ)]; exact zpow_le_zpow_right₀ (by norm_num) (by omega))
    (by rw [← zpow_zero (10 : ℚ)]; exact zpow_le_zpow_right₀ (by norm_num) (by omega))
    (by rw [abs_of_pos hrp]; exact h1) (by rw [abs_of_pos hrp]; exact h2)
  rw [abs_of_pos hrak] at b1 b2
  have hsy := mul_pos s0 y0
  obtain ⟨x1, x2⟩ := exp_range s1.toWF y1.toWF s0.ne' y0.ne' (by
      rw [abs_of_pos hsy]
      have e : (10 : ℚ) ^ (c.maxExp : ℤ) = 10 ^ ((c.maxExp : ℤ) - 1) * 10 := by
        rw [← zpow_add_one₀ (by norm_num)]; congr 1; ring
      have := p10_pos ((c.maxExp : ℤ) - 1)
      have := mul_le_mul_of_nonneg_left n1 hrak.le
      linarith) (by
      rw [abs_of_pos hsy]
      have e : (10 : ℚ) ^ (-(c.maxExp : ℤ) + 2 * c.ed + 1) = 10 ^ (-(c.maxExp : ℤ) + 2 * c.ed) * 10 := by
        rw [← zpow_add_one₀ (by norm_num)]
      have := p10_pos (-(c.maxExp : ℤ) + 2 * c.ed)
      have := mul_le_mul_of_nonneg_left n2 hrak.le
      linarith)
  obtain ⟨pm, hpm⟩ : ∃ pm, pm = min s.prec y.prec := ⟨_, rfl⟩
  have hpN : pm ≤ c.N := by have := s1.precN; omega
  obtain ⟨m1, m2, m3, m4, m5⟩ := mul_near s1.toWF y1.toWF s1.nz y1.nz hpm (hok.ok (by omega) hpN) x1 x2
  rw [s1.abs_val, y1.abs_val] at m5
  have hanti := eta_anti (c := c) (show q ≤ pm by omega)
  have m6 : 3 * eta c pm * (s.val c * y.val c) ≤ 3 * eta c q * (s.val c * y.val c) := mul_le_mul_of_nonneg_right (by linarith) hsy.le
  obtain ⟨w1, w2⟩ := abs_le.mp m5
  refine ⟨posi_of_val m1 (by have := mul_le_mul_of_nonneg_right hη1 hsy.le; linarith), by omega, ?_, ?_⟩
  · have h3 := mul_le_mul_of_nonneg_right hlo e0
    rw [show a + k - 1 = (a + k - 2) + 1 by omega, pow_succ, ← mul_assoc]
    linarith
  · have h3 := mul_le_mul_of_nonneg_right hhi (show 0 ≤ 1 + 3 * eta c q by linarith)
    rw [show a + k - 1 = (a + k - 2) + 1 by omega, pow_succ, ← mul_assoc]
    linarith

theorem isOneSN_congr {c : Cfg} {x y : DW} (h : x.data = y.data) (he : x.exp = y.exp) : isOneSN c x = isOneSN c y := by
  unfold isOneSN d0; rw [h, he]

theorem isOneSN_u32 (c : Cfg) : isOneSN c (ofUnsigned c 32 1) = true := by
  obtain ⟨a, b, e⟩ := ofU32_one c
  have o := one_full c
  have hd : (ofUnsigned c 32 1).data = (one c).data := by
    have h1 := a.toWF.len
    have h2 := o.toWF.len
    apply limbsVal_inj (B := c.B) a.valid o.valid (by rw [h1, h2])
    have v1 := DW.abs_val c (ofUnsigned c 32 1)
    have v2 := DW.abs_val c (one c)
    rw [b] at v1
    rw [one_val] at v2
    have hl : (ofUnsigned c 32 1).lexp c = (one c).lexp c := by unfold lexp; rw [e]; rfl
    rw [hl, v2] at v1
    have := mul_right_cancel₀ (p10_pos _).ne' v1
    exact_mod_cast this.symm
  rw [isOneSN_congr hd (e.trans rfl)]
  unfold isOneSN one fromLst d0
  have h3 := c.three_le_N
  have h1 : List.take c.N [1] = [1] := List.take_of_length_le (by simp; omega)
  simp [h1]

/-- The p-th power of `calculate_rootn_inv`. -/
theorem powNat_near {c : Cfg} (hok : MulOkAll c) {q p : ℕ} {r : DW} (hr : Posi c r) (hrp : q ≤ r.prec) (q2 : 2 ≤ q) (hη1 : eta c q ≤ 1 / 10 ^ 4)
    (hpη : (p : ℚ) * (3 * eta c q) ≤ 1 / 2) (hm : 2 * (c.ed : ℤ) + 1 ≤ c.maxExp)
    (h1 : (10 : ℚ) ^ (-(c.maxExp : ℤ) + 2 * c.ed + 1) ≤ r.val c ^ p) (h2 : r.val c ^ p ≤ (10 : ℚ) ^ ((c.maxExp : ℤ) - 1)) (hp : 1 ≤ p) :
    PowerOf c q (r.val c) p (powNat c r p) := by
  have h := powNat_ind (c := c) (P := p) (b := r) (R := fun a s => (a = 0 ∧ s = ofUnsigned c 32 1) ∨ (1 ≤ a ∧ PowerOf c q (r.val c) a s))
    (Y := fun k y => 1 ≤ k ∧ PowerOf c q (r.val c) k y) (by
      rintro a k s y (⟨rfl, rfl⟩ | ⟨ha, hs⟩) ⟨-, hy⟩ hk hak
      · right
        refine ⟨by omega, ?_⟩
        have o := ofU32_one c
        have hz : (ofUnsigned c 32 1).isZero = false := isZero_false_of_val o.1.toWF (by rw [o.2.1]; norm_num)
        have hn : (ofUnsigned c 32 1).neg = false := (posi_of_val o.1.toWF (by rw [o.2.1]; norm_num)).nn
        rcases mulAssign_cases hz hy.posi.nz with ⟨-, h⟩ | ⟨h, -⟩ | ⟨h, -⟩ | ⟨h, -⟩ | ⟨h, -⟩
        · rw [h, hn, hy.posi.nn, Nat.zero_add]
          have : ({ y with neg := (false != false) } : DW) = y := by
            have := hy.posi.nn
            cases y; simp_all
          rw [this]; exact hy
        all_goals rw [isOneSN_u32] at h; exact absurd h (by decide)
      · exact Or.inr ⟨by omega, hs.mul hok hr.val_pos q2 hη1 hpη hm h1 h2 hy ha hk hak⟩)
    (by
      rintro k y ⟨hk, hy⟩ - hkk
      exact ⟨by omega, hy.mul hok hr.val_pos q2 hη1 hpη hm h1 h2 hy hk hk hkk⟩)
    (fun k y h => Or.inr h) (Or.inl ⟨rfl, rfl⟩) ⟨le_refl _, hr, hrp, by simp, by simp⟩
  rcases h with ⟨h, -⟩ | ⟨-, h⟩
  · omega
  · exact h

theorem power_close {η : ℚ} {p n : ℕ} (h0 : 0 ≤ η) (h : p * η ≤ 1 / 10 ^ 14) (hn : n ≤ p) :
    99 / 100 ≤ (1 - 3 * η) ^ n ∧ (1 + 3 * η) ^ n ≤ 101 / 100 + 1 / 1000 := by
  have hnp : (n : ℚ) ≤ p := by exact_mod_cast hn
  rcases Nat.eq_zero_or_pos n with rfl | hn0
  · norm_num
  have hn1 : (1 : ℚ) ≤ n := by exact_mod_cast hn0
  have h1 := mul_le_mul_of_nonneg_right hnp h0
  have h2 := mul_le_mul_of_nonneg_right hn1 h0
  have b : 1 + (n : ℚ) * (-(3 * η)) ≤ (1 + -(3 * η)) ^ n := one_add_mul_le_pow (by linarith) n
  have lo : 999 / 1000 ≤ (1 - 3 * η) ^ n := by rw [sub_eq_add_neg]; linarith
  refine ⟨by linarith, ?_⟩
  have hprod : (1 + 3 * η) ^ n * (1 - 3 * η) ^ n ≤ 1 := by
    rw [← mul_pow]
    exact pow_le_one₀ (mul_nonneg (by linarith) (by linarith)) (by nlinarith)
  have hp : 0 ≤ (1 + 3 * η) ^ n := by positivity
  have := mul_le_mul_of_nonneg_left lo hp
  linarith

theorem divSLL_nat {c : Cfg} {est : DW → DW} {fdig : ℕ} (u : DW) {p : ℕ} (hp : p < 2 ^ 63) : divSLL c est fdig u (p : ℤ) = divULL c est fdig u p := by
  unfold divSLL castULL
  have h : ((p : ℤ) % 2 ^ 64).toNat = p := by omega
  simp only [if_neg (show ¬ ((p : ℤ) < 0) by omega), h]

set_option maxHeartbeats 2000000 in
/-- One round of the iteration. -/
theorem rootnStep_spec {c : Cfg} {est : DW → DW} {fdig : ℕ} (hok : MulOkAll c) {x r : DW} (hx : Posi c x) (hr : Posi c r) {p : ℕ} (hp : 3 ≤ p)
    (hpB : p < c.B) {δ : ℚ} (hδ : x.val c * r.val c ^ p = 1 - δ) (hδ1 : |δ| ≤ 1 / 10 ^ 12)
    (hr1 : x.exp + (c.N + 6) * c.ed < c.maxExp) (hr2 : -x.exp + (c.N + 6) * c.ed < c.maxExp) (D : ℕ)
    {q : ℕ} (q3 : 3 ≤ q) (qN : q ≤ c.N) (hq : ∀ x : DW, precision c x ((D : ℤ) * 2 + min ((c.ed : ℤ) + 1) 9) = { x with prec := q })
    (hpη : p * eta c q ≤ 1 / 10 ^ 14) :
    let s := rootnStep c est fdig p D r x
    Posi c s.1 ∧ s.2 = { x with prec := q } ∧ |x.val c * s.1.val c ^ p - 1| ≤ 74 / 100 * δ ^ 2 + 1002 / 100 * (p * eta c q) := by
  intro s
  have q2 : 2 ≤ q := by omega
  have hη := eta_pos c q
  have hp3 : (3 : ℚ) ≤ p := by exact_mod_cast hp
  have hη1 : eta c q ≤ 1 / 10 ^ 14 := by
    have := mul_le_mul_of_nonneg_right hp3 hη.le
    linarith
  obtain ⟨S, hS⟩ : ∃ S : DW, S = { r with prec := q } := ⟨_, rfl⟩
  obtain ⟨X, hX⟩ : ∃ X : DW, X = { x with prec := q } := ⟨_, rfl⟩
  have pS := hr.setPrec q2 qN
  have pX := hx.setPrec q2 qN
  rw [← hS] at pS
  rw [← hX] at pX
  have hSv : S.val c = r.val c := by rw [hS]; rfl
  have hXv : X.val c = x.val c := by rw [hX]; rfl
  have hXe : X.exp = x.exp := by rw [hX]
  have hSp : S.prec = q := by rw [hS]
  have hXp : X.prec = q := by rw [hX]
  have hpl : p < 2 ^ 63 := by
    have : c.B ≤ 10 ^ 8 := by unfold Cfg.B; cases c.L <;> decide
    omega
  have hdef : s = (mulAssign c S { addAssign c (divULL c est fdig (addAssign c (mulAssign c (powNat c S p).negate X) (one c)) p) (one c) with prec := q }, X) := by
    show rootnStep c est fdig p D r x = _
    unfold rootnStep
    have hmn : ((min (c.ed + 1) 9 : ℕ) : ℤ) = min ((c.ed : ℤ) + 1) 9 := by push_cast; rfl
    simp only [hmn, hq, hS, hX, divSLL_nat _ hpl]
  rw [← hXv] at hδ ⊢
  rw [← hSv] at hδ
  rw [← hXe] at hr1 hr2
  have s0 := pS.val_pos
  have x0 := pX.val_pos
  have hed2 : (2 : ℤ) ≤ c.ed := by
    have : 2 ≤ c.ed := by unfold Cfg.ed; cases c.L <;> decide
    exact_mod_cast this
  have hN3 : (3 : ℤ) ≤ c.N := by exact_mod_cast c.three_le_N
  have hNe : 3 * (c.ed : ℤ) ≤ c.N * c.ed := mul_le_mul_of_nonneg_right hN3 (by omega)
  have hr1' : X.exp + (c.N * c.ed + 6 * c.ed) < c.maxExp := by rw [← add_mul]; exact hr1
  have hr2' : -X.exp + (c.N * c.ed + 6 * c.ed) < c.maxExp := by rw [← add_mul]; exact hr2
  have hme : (c.N : ℤ) * c.ed + 6 * c.ed < c.maxExp := by omega
  obtain ⟨dl, du⟩ := abs_le.mp hδ1
  -- size of the power
  have xg := pX.toWF.abs_ge pX.nz
  have xl := pX.toWF.abs_lt
  rw [pX.abs_val] at xg xl
  have hR0 : 0 < S.val c ^ p := pow_pos s0 p
  have hlo : (10 : ℚ) ^ (-(c.maxExp : ℤ) + 2 * c.ed + 1) ≤ S.val c ^ p := by
    have h1 : (10 : ℚ) ^ (-(c.maxExp : ℤ) + 2 * c.ed + 1) ≤ 10 ^ (-(X.exp + c.ed) + -1) := zpow_le_zpow_right₀ (by norm_num) (by omega)
    refine h1.trans ?_
    rw [ten_two, zpow_neg, ← one_div, div_mul_eq_mul_div, div_le_iff₀ (p10_pos _)]
    have := mul_le_mul_of_nonneg_left xl.le hR0.le
    norm_num
    linarith
  have hhi : S.val c ^ p ≤ (10 : ℚ) ^ ((c.maxExp : ℤ) - 1) := by
    have h1 : (10 : ℚ) ^ (-X.exp + 1) ≤ 10 ^ ((c.maxExp : ℤ) - 1) := zpow_le_zpow_right₀ (by norm_num) (by omega)
    refine le_trans ?_ h1
    rw [ten_two, zpow_neg, ← one_div, div_mul_eq_mul_div, le_div_iff₀ (p10_pos _)]
    have := mul_le_mul_of_nonneg_left xg hR0.le
    norm_num
    linarith
  obtain ⟨P1, P2, P3, P4⟩ := powNat_near hok pS (le_of_eq hSp.symm) q2 (by linarith) (p := p) (by linarith) (by omega) hlo hhi (by omega)
  generalize powNat c S p = P at *
  have P0 := P1.val_pos
  -- T = - P x
  have nW := negate_WF P1.toWF
  have nz : P.negate.isZero = false := by rw [negate_isZero]; exact P1.nz
  have nn : P.negate.neg = true := by rw [negate_neg P1.nz, P1.nn]; rfl
  have nv : P.negate.val c = -P.val c := negate_val c P1.toWF
  have np : P.negate.prec = P.prec := negate_prec P
  have ne : P.negate.exp = P.exp := negate_exp P
  have hB : (c.B : ℚ) ≤ 10 ^ 8 := by
    have : c.B ≤ 10 ^ 8 := by unfold Cfg.B; cases c.L <;> decide
    exact_mod_cast this
  obtain ⟨w1, w2⟩ := power_close hη.le hpη (show p - 1 ≤ p by omega)
  have hPx1 : P.val c * X.val c ≤ 102 / 100 := by
    have h1 := mul_le_mul_of_nonneg_left P4 x0.le
    rw [← mul_assoc, hδ] at h1
    have h2 := mul_le_mul_of_nonneg_left w2 (show 0 ≤ 1 - δ by linarith)
    linarith
  have hPx2 : 98 / 100 ≤ P.val c * X.val c := by
    have h1 := mul_le_mul_of_nonneg_left P3 x0.le
    rw [← mul_assoc, hδ] at h1
    have h2 := mul_le_mul_of_nonneg_left w1 (show 0 ≤ 1 - δ by linarith)
    linarith
  obtain ⟨g1, g2⟩ := exp_range P1.toWF pX.toWF P0.ne' x0.ne' (by
      rw [abs_of_pos (mul_pos P0 x0)]
      have : (10 : ℚ) ^ (1 : ℤ) ≤ 10 ^ (c.maxExp : ℤ) := zpow_le_zpow_right₀ (by norm_num) (by omega)
      rw [zpow_one] at this
      linarith) (by
      rw [abs_of_pos (mul_pos P0 x0)]
      have : (10 : ℚ) ^ (-(c.maxExp : ℤ) + 2 * c.ed) ≤ 10 ^ (-1 : ℤ) := zpow_le_zpow_right₀ (by norm_num) (by omega)
      norm_num at this
      linarith)
  obtain ⟨a1, a2, a3, a4, a5⟩ := mul_near nW pX.toWF nz pX.nz (p := min P.negate.prec X.prec) rfl (hok.ok (by omega) (by omega)) (by rw [ne]; exact g1) (by rw [ne]; exact g2)
  generalize mulAssign c P.negate X = T at *
  rw [nv, abs_neg, P1.abs_val, pX.abs_val] at a5
  have hq' : q ≤ min P.negate.prec X.prec := by rw [np, hXp]; omega
  have Tn : T.neg = true := by rw [a3, nn, pX.nn]; rfl
  have Tv : |T.val c + P.val c * X.val c| ≤ 3 * eta c q * (P.val c * X.val c) := by
    have e : T.val c - -P.val c * X.val c = T.val c + P.val c * X.val c := by ring
    rw [e] at a5
    refine a5.trans (mul_le_mul_of_nonneg_right ?_ (mul_pos P0 x0).le)
    have := eta_anti (c := c) hq'; linarith
  -- h = T + 1
  have oz : (one c).isZero = false := isZero_false_of_val (one_full c).toWF (by rw [one_val]; norm_num)
  have hh := add_near a1 (one_full c).toWF a2 oz (p := min T.prec (one c).prec) rfl (by
    intro _ hn; rw [Tn, show (one c).neg = false from rfl] at hn; exact absurd hn (by decide))
  have o1 : (one c).exp = 0 := rfl
  have o2 : (one c).prec = c.N := (one_full c).full
  rw [one_val, o1, o2, abs_one] at hh
  have hpq : q ≤ min T.prec c.N := by omega
  replace hh := hh.mono (q := q) (lo' := -(c.ed * ((c.N : ℤ) - 1))) (e' := 3 * (max |T.val c| 1 * eta c q)) hpq (by
      have h1 := le_max_right T.exp 0
      have h2 := mul_le_mul_of_nonneg_left (show ((min T.prec c.N : ℕ) : ℤ) - 1 ≤ c.N - 1 by omega) (show (0 : ℤ) ≤ c.ed by omega)
      linarith) (by
      have h1 := mul_le_mul_of_nonneg_left (eta_anti (c := c) hpq) (show 0 ≤ max |T.val c| 1 from le_trans (by norm_num) (le_max_right _ _))
      linarith)
  generalize addAssign c T (one c) = h at *
  -- t = h / p + 1
  have key : ∃ H d : ℚ, ∃ t : DW, addAssign c (divULL c est fdig h p) (one c) = t ∧ Posi c t ∧ q ≤ t.prec ∧ |H - (T.val c + 1)| ≤ 3 * (max |T.val c| 1 * eta c q) ∧
      |d - H / p| ≤ 2 * p * c.B * eta c q * (|H| / p) ∧ |t.val c - (d + 1)| ≤ 3 * (max |d| 1 * eta c q) ∧ 1 / 2 ≤ t.val c ∧ t.val c ≤ 2 := by
    rcases hh with ⟨h1, h2, h3, h4, h5⟩ | ⟨h1, h2, h3, h4, h5⟩
    · have l1 := h1.abs_lt
      have l2 : -((c.ed : ℤ) * ((c.N : ℤ) - 1)) < h.exp + c.ed :=
        (zpow_lt_zpow_iff_right₀ (by norm_num : (1 : ℚ) < 10)).mp (lt_of_le_of_lt h4 l1)
      have l3 : (c.ed : ℤ) * ((c.N : ℤ) - 1) = c.N * c.ed - c.ed := by ring
      have hTa : |T.val c| ≤ 104 / 100 := by
        have := mul_le_mul_of_nonneg_right hη1 (mul_pos P0 x0).le
        obtain ⟨u1, u2⟩ := abs_le.mp Tv
        rw [abs_le]; constructor <;> linarith
      have hTb : |T.val c + 1| ≤ 3 / 100 := by
        have := mul_le_mul_of_nonneg_right hη1 (mul_pos P0 x0).le
        obtain ⟨u1, u2⟩ := abs_le.mp Tv
        rw [abs_le]; constructor <;> linarith
      have hmx : max |T.val c| 1 * eta c q ≤ 104 / 100 * (1 / 10 ^ 14) := mul_le_mul (max_le hTa (by norm_num)) hη1 hη.le (by norm_num)
      have hHa : |h.val c| ≤ 4 / 100 := by
        obtain ⟨u1, u2⟩ := abs_le.mp h5
        obtain ⟨v1, v2⟩ := abs_le.mp hTb
        rw [abs_le]; constructor <;> linarith
      obtain ⟨d1, d2, d3, d4, d5⟩ := divULL_near (est := est) (fdig := fdig) h1 h2 (by omega) (n := p) (by omega) hpB (by omega)
      generalize divULL c est fdig h p = d at *
      have hpp : (0 : ℚ) < p := by linarith
      have d6 : |d.val c - h.val c / p| ≤ 2 * p * c.B * eta c q * (|h.val c| / p) := by
        refine d5.trans (mul_le_mul_of_nonneg_right (mul_le_mul_of_nonneg_left (eta_anti (c := c) h3) (by positivity)) (by positivity))
      have hHp : |h.val c / p| ≤ 4 / 300 := by
        rw [abs_div, abs_of_pos hpp, div_le_iff₀ hpp]
        linarith
      have d7 : 2 * (p : ℚ) * c.B * eta c q * (|h.val c| / p) ≤ 1 / 100 := by
        have e : 2 * (p : ℚ) * c.B * eta c q * (|h.val c| / p) = 2 * (c.B * |h.val c|) * eta c q := by field_simp
        rw [e]
        have h6 : (c.B : ℚ) * |h.val c| ≤ 10 ^ 8 * (4 / 100) := mul_le_mul hB hHa (abs_nonneg _) (by norm_num)
        have h7 := mul_le_mul h6 hη1 hη.le (by norm_num)
        linarith
      have hda : |d.val c| ≤ 3 / 100 := by
        obtain ⟨u1, u2⟩ := abs_le.mp (d6.trans d7)
        obtain ⟨v1, v2⟩ := abs_le.mp hHp
        rw [abs_le]; constructor <;> linarith
      have hdn := add_near d1 (one_full c).toWF d2 oz (p := min d.prec (one c).prec) rfl (by
        intro _ _
        rw [one_val, o1, abs_one]
        have : (10 : ℚ) ^ (1 : ℤ) ≤ 10 ^ (max d.exp 0 + (c.ed : ℤ)) := zpow_le_zpow_right₀ (by norm_num) (by have := le_max_right d.exp 0; omega)
        rw [zpow_one] at this
        linarith)
      rw [one_val, o1, o2, abs_one] at hdn
      have hpq' : q ≤ min d.prec c.N := by omega
      replace hdn := hdn.mono (q := q) (e' := 3 * (max |d.val c| 1 * eta c q)) hpq' le_rfl (by
        have h1 := mul_le_mul_of_nonneg_left (eta_anti (c := c) hpq') (show 0 ≤ max |d.val c| 1 from le_trans (by norm_num) (le_max_right _ _))
        linarith)
      have hm1 : max |d.val c| 1 = 1 := max_eq_right (by linarith)
      obtain ⟨v1, v2⟩ := abs_le.mp hda
      obtain ⟨t1, t2, t3, -, t5⟩ := hdn.nonzero (by rw [hm1, abs_of_pos (by linarith)]; linarith)
      have t6 := t5
      rw [hm1] at t6
      obtain ⟨w1, w2⟩ := abs_le.mp t6
      exact ⟨h.val c, d.val c, _, rfl, posi_of_val t1 (by linarith), t3, h5, d6, t5, by linarith, by linarith⟩
    · have hz : (divULL c est fdig h p).isZero = true := by
        unfold divULL
        rw [if_neg (by omega), if_pos h1]; exact h1
      rw [addAssign_zero_left hz]
      exact ⟨0, 0, one c, rfl, posi_of_val (one_full c).toWF (by rw [one_val]; norm_num), by rw [o2]; exact qN, by rw [zero_sub, abs_neg]; exact h5, by simp,
        by rw [one_val]; simp; exact hη.le, by rw [one_val]; norm_num, by rw [one_val]; norm_num⟩
  obtain ⟨H, d, t, te, t1, t2, t3, t4, t5, t6, t7⟩ := key
  rw [te] at hdef
  have pt := t1.setPrec q2 qN
  have ptv : ({ t with prec := q } : DW).val c = t.val c := rfl
  have ptp : ({ t with prec := q } : DW).prec = q := rfl
  generalize ({ t with prec := q } : DW) = t' at *
  obtain ⟨b1, b2⟩ := pow_between (q := S.val c) (P := p) (j := 1) (lo := (10 : ℚ) ^ (-(c.maxExp : ℤ) + 2 * c.ed + 1)) (hi := (10 : ℚ) ^ ((c.maxExp : ℤ) - 1)) (by omega)
    (by rw [← zpow_zero (10 : ℚ)]; exact zpow_le_zpow_right₀ (by norm_num) (by omega))
    (by rw [← zpow_zero (10 : ℚ)]; exact zpow_le_zpow_right₀ (by norm_num) (by omega))
    (by rw [abs_of_pos hR0]; exact hlo) (by rw [abs_of_pos hR0]; exact hhi)
  rw [pow_one, abs_of_pos s0] at b1 b2
  have hst : 0 < S.val c * t.val c := mul_pos s0 (by linarith)
  obtain ⟨x1, x2⟩ := exp_range pS.toWF pt.toWF s0.ne' pt.val_pos.ne' (by
      rw [ptv, abs_of_pos hst]
      have e : (10 : ℚ) ^ (c.maxExp : ℤ) = 10 ^ ((c.maxExp : ℤ) - 1) * 10 := by
        rw [← zpow_add_one₀ (by norm_num)]; congr 1; ring
      have := p10_pos ((c.maxExp : ℤ) - 1)
      have := mul_le_mul_of_nonneg_left t7 s0.le
      linarith) (by
      rw [ptv, abs_of_pos hst]
      have e : (10 : ℚ) ^ (-(c.maxExp : ℤ) + 2 * c.ed + 1) = 10 ^ (-(c.maxExp : ℤ) + 2 * c.ed) * 10 := by
        rw [← zpow_add_one₀ (by norm_num)]
      have := p10_pos (-(c.maxExp : ℤ) + 2 * c.ed)
      have := mul_le_mul_of_nonneg_left t6 s0.le
      linarith)
  obtain ⟨m1, m2, m3, m4, m5⟩ := mul_near pS.toWF pt.toWF pS.nz pt.nz (p := q) (by rw [hSp, ptp, Nat.min_self]) (hok.ok (by omega) qN) x1 x2
  rw [ptv, pS.abs_val] at m5
  rw [hdef]
  have mp : Posi c (mulAssign c S t') := ⟨m1, m2, by rw [m3, pS.nn, pt.nn]; rfl⟩
  refine ⟨mp, hX, ?_⟩
  exact rootn_num hp hη hpη hδ1 (by positivity) hB s0 x0 hδ P3 P4 Tv t3 t4 t5 m5

end WD
