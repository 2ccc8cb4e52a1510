import Verif.Model.Elem
import Verif.Proofs.Ops
import Verif.Props.Round
import Mathlib.Data.Nat.Factorial.Basic
import Mathlib.Algebra.BigOperators.Group.Finset.Basic
import Mathlib.Algebra.Order.BigOperators.Group.Finset
/-
  The Taylor loop of `exp`: error of the terms, of the sum, and what is known when it ends.
-/
namespace WD
open DW Finset

/-- The exact term z^k/k!. -/
def expTerm (z : ℚ) (k : ℕ) : ℚ := z ^ k / (k.factorial : ℚ)
/-- The exact partial sum of the terms below n. -/
def expSum (z : ℚ) (n : ℕ) : ℚ := ∑ k ∈ range n, expTerm z k

theorem expTerm_succ (z : ℚ) (k : ℕ) : expTerm z (k + 1) = expTerm z k * z / ((k + 1 : ℕ) : ℚ) := by
  unfold expTerm
  rw [pow_succ, Nat.factorial_succ]
  have h1 : ((k + 1 : ℕ) : ℚ) ≠ 0 := by positivity
  have h2 : (k.factorial : ℚ) ≠ 0 := by positivity
  push_cast at h1 ⊢
  field_simp

theorem expTerm_le {z : ℚ} (hz : |z| ≤ 1 / 2900) : ∀ n, 2 ≤ n → |expTerm z n| ≤ (1 / 1000) ^ n / 16 := by
  intro n hn
  induction n, hn using Nat.le_induction with
  | base =>
    unfold expTerm
    rw [abs_div, abs_pow]
    have h0 := abs_nonneg z
    have : |z| ^ 2 ≤ (1 / 2900) ^ 2 := pow_le_pow_left₀ h0 hz 2
    have h2 : |((Nat.factorial 2 : ℕ) : ℚ)| = 2 := by norm_num [Nat.factorial]
    rw [h2]
    norm_num at this ⊢
    linarith
  | succ n hn ih =>
    rw [expTerm_succ, abs_div, abs_mul]
    have h1 : (1 : ℚ) ≤ ((n + 1 : ℕ) : ℚ) := by exact_mod_cast Nat.le_add_left 1 n
    rw [abs_of_pos (show (0 : ℚ) < ((n + 1 : ℕ) : ℚ) by linarith)]
    have h2 : |expTerm z n| * |z| ≤ (1 / 1000) ^ n / 16 * (1 / 2900) := mul_le_mul ih hz (abs_nonneg _) (by positivity)
    have h3 : |expTerm z n| * |z| / ((n + 1 : ℕ) : ℚ) ≤ |expTerm z n| * |z| := div_le_self (by positivity) h1
    have h4 : (0 : ℚ) < (1 / 1000) ^ n := by positivity
    rw [pow_succ]; linarith

theorem expSum_le {z : ℚ} (hz : |z| ≤ 1 / 2900) (n : ℕ) : |expSum z n| ≤ 2 - 2 * (1 / 2) ^ n := by
  induction n with
  | zero => simp [expSum]
  | succ n ih =>
    unfold expSum at *
    rw [sum_range_succ]
    have h1 : |expTerm z n| ≤ (1 / 2) ^ n := by
      unfold expTerm
      rw [abs_div, abs_pow]
      have h2 : (1 : ℚ) ≤ (n.factorial : ℚ) := by exact_mod_cast Nat.one_le_iff_ne_zero.mpr (Nat.factorial_ne_zero n)
      rw [abs_of_pos (show (0 : ℚ) < (n.factorial : ℚ) by linarith)]
      refine le_trans (div_le_self (by positivity) h2) ?_
      exact pow_le_pow_left₀ (abs_nonneg z) (by linarith) n
    have h2 := abs_add_le (∑ k ∈ range n, expTerm z k) (expTerm z n)
    rw [pow_succ]; linarith

/-- One new term: T the old exact term, t the computed one, m the product, t' the quotient. -/
theorem term_step {T t z m t' ν ε μ φ q : ℚ} (hν : 2 ≤ ν) (hz : |z| ≤ 1 / 2900) (hε0 : 0 ≤ ε) (hε : ε ≤ 1 / 1000) (hμ0 : 0 ≤ μ)
    (hμ : μ ≤ ε) (hφ : 0 ≤ φ) (hq : 0 ≤ q) (hT : |T * z / ν| ≤ q / 1000 / 16) (ht : |t - T| ≤ ε * q + 4 * φ)
    (hm : |m - t * z| ≤ 2 * μ * (|t| * |z|) + φ) (hd : |t' - m / ν| ≤ 2 * ε * (|m| / ν) + φ) :
    |t' - T * z / ν| ≤ ε * (q / 1000) + 4 * φ := by
  have hν0 : (0 : ℚ) < ν := by linarith
  have hz0 := abs_nonneg z
  -- a = |t z / ν|
  have e1 : |t * z / ν - T * z / ν| ≤ (ε * q + 4 * φ) / 5800 := by
    rw [show t * z / ν - T * z / ν = (t - T) * z / ν by ring, abs_div, abs_mul, abs_of_pos hν0]
    have h1 : |t - T| * |z| ≤ (ε * q + 4 * φ) * (1 / 2900) := mul_le_mul ht hz hz0 (by positivity)
    have h2 : |t - T| * |z| / ν ≤ |t - T| * |z| / 2 := div_le_div_of_nonneg_left (by positivity) (by norm_num) hν
    linarith
  have e2 : |t * z / ν| ≤ q / 1000 / 16 + (ε * q + 4 * φ) / 5800 := by
    have := abs_add_le (T * z / ν) (t * z / ν - T * z / ν)
    rw [add_sub_cancel] at this
    linarith
  have e3 : |m / ν - t * z / ν| ≤ 2 * μ * |t * z / ν| + φ / 2 := by
    rw [← sub_div, abs_div, abs_of_pos hν0, abs_div, abs_mul, abs_of_pos hν0]
    have h1 : |m - t * z| / ν ≤ (2 * μ * (|t| * |z|) + φ) / ν := div_le_div_of_nonneg_right hm hν0.le
    have h2 : φ / ν ≤ φ / 2 := div_le_div_of_nonneg_left hφ (by norm_num) hν
    rw [add_div] at h1
    have h3 : 2 * μ * (|t| * |z|) / ν = 2 * μ * (|t| * |z| / ν) := by ring
    linarith
  have e4 : |m| / ν ≤ |t * z / ν| + (2 * μ * |t * z / ν| + φ / 2) := by
    have := abs_add_le (t * z / ν) (m / ν - t * z / ν)
    rw [add_sub_cancel, abs_div m, abs_of_pos hν0] at this
    linarith
  have e5 : |t' - T * z / ν| ≤ |t' - m / ν| + |m / ν - t * z / ν| + |t * z / ν - T * z / ν| := by
    have h1 := abs_add_le (t' - m / ν) (m / ν - t * z / ν)
    have h2 := abs_add_le (t' - m / ν + (m / ν - t * z / ν)) (t * z / ν - T * z / ν)
    rw [show t' - m / ν + (m / ν - t * z / ν) + (t * z / ν - T * z / ν) = t' - T * z / ν by ring] at h2
    linarith
  have ha := abs_nonneg (t * z / ν)
  generalize |t * z / ν| = a at *
  generalize |m| / ν = b at *
  have h1 : μ * a ≤ ε * a := mul_le_mul_of_nonneg_right hμ ha
  have h2 : b ≤ 2 * a + φ := by
    have : μ * a ≤ 1 / 1000 * a := mul_le_mul_of_nonneg_right (by linarith) ha
    linarith
  have h3 : ε * b ≤ ε * (2 * a + φ) := mul_le_mul_of_nonneg_left h2 hε0
  have h4 : ε * φ ≤ 1 / 1000 * φ := mul_le_mul_of_nonneg_right hε hφ
  have h5 : ε * a ≤ ε * (q / 1000 / 16 + (ε * q + 4 * φ) / 5800) := mul_le_mul_of_nonneg_left e2 hε0
  have h6 : ε * (ε * q) ≤ 1 / 1000 * (ε * q) := mul_le_mul_of_nonneg_right hε (by positivity)
  have h7 : 0 ≤ ε * q := by positivity
  nlinarith

theorem divULL_zero {c : Cfg} {est : DW → DW} {fdig : ℕ} {u : DW} (hu : Full c u) (h : u.val c = 0) {n : ℕ} (h0 : 0 < n) :
    Full c (divULL c est fdig u n) ∧ (divULL c est fdig u n).val c = 0 := by
  have hz := hu.toWF.isZero_iff.mpr h
  have : divULL c est fdig u n = { u with neg := false } := by
    unfold divULL
    rw [if_neg (by omega), if_pos hz]
  rw [this]
  exact ⟨setNeg_full hu false, (setNeg_wf hu.toWF false).isZero_iff.mp hz⟩

/-- The state before index n: t approximates the term n-1, h the sum of the terms below n. -/
structure ExpInv (c : Cfg) (z : ℚ) (g n : ℕ) (t h : DW) : Prop where
  two : 2 ≤ n
  ft : Full c t
  fh : Full c h
  et : |t.val c - expTerm z (n - 1)| ≤ 10 ^ (-(c.digits10 : ℤ)) * (1 / 1000) ^ (n - 1) + 4 * flushC c
  small : t.val c ≠ 0 → n ≤ 5 ∨ 3 * (n - 1) ≤ g
  eh : |h.val c - expSum z n| ≤ 3 * mulEps c * ((min n (g / 3 + 6) : ℕ) : ℚ) +
    10 ^ (-(c.digits10 : ℤ)) * (1 / 1000 - (1 / 1000) ^ (n - 1)) + 4 * flushC c * n

set_option maxHeartbeats 1000000 in
theorem expLoop_spec {c : Cfg} {est : DW → DW} {fdig : ℕ} {xh : DW} {g : ℕ} (hx : Full c xh) (hok : MulOk c c.N)
    (hE : (c.ed : ℤ) ∣ c.maxExp) (hM : 2 * (c.ed : ℤ) < c.maxExp) (hd : 3 ≤ c.digits10)
    (hx1 : -(c.maxExp : ℤ) < xh.exp) (hx2 : xh.exp < c.maxExp) (hz : |xh.val c| ≤ 1 / 2900)
    (hφ : 1000000 * flushC c ≤ 10 ^ (-(g : ℤ))) (hφ1 : 1000000 * flushC c ≤ 1) (hB : g / 3 + 6 < c.B)
    (hμ : 3 * mulEps c * ((g / 3 + 6 : ℕ) : ℚ) ≤ 1 / 10) :
    ∀ (fuel n : ℕ) (t h : DW), ExpInv c (xh.val c) g n t h → n + fuel = 100000 →
      Full c (expLoop c est fdig g xh fuel n t h) ∧ ∃ m, 5 ≤ m ∧
        |(expLoop c est fdig g xh fuel n t h).val c - expSum (xh.val c) m| ≤ 3 * mulEps c * ((g / 3 + 6 : ℕ) : ℚ) +
          10 ^ (-(c.digits10 : ℤ)) * (1 / 1000) + 400000 * flushC c ∧
        (|expTerm (xh.val c) m| ≤ 10 ^ (-(g : ℤ)) + 10 ^ (-(c.digits10 : ℤ)) * (1 / 1000) + 4 * flushC c ∨ m = 100000) := by
  have hφ0 := flushC_pos c
  have hμ0 := mulEps_pos c
  have hε0 : (0 : ℚ) < 10 ^ (-(c.digits10 : ℤ)) := p10_pos _
  have hε1 : (10 : ℚ) ^ (-(c.digits10 : ℤ)) ≤ 1 / 1000 := by
    rw [show (1 : ℚ) / 1000 = 10 ^ (-3 : ℤ) by norm_num]
    exact zpow_le_zpow_right₀ (by norm_num) (by omega)
  have hμε : mulEps c ≤ 10 ^ (-(c.digits10 : ℤ)) := by
    unfold mulEps
    rw [one_div, ← zpow_natCast, ← zpow_neg]
    exact zpow_le_zpow_right₀ (by norm_num) (by push_cast; omega)
  -- bound of the sum's error
  have ehB : ∀ n, 2 ≤ n → n ≤ 100000 → 3 * mulEps c * ((min n (g / 3 + 6) : ℕ) : ℚ) +
      10 ^ (-(c.digits10 : ℤ)) * (1 / 1000 - (1 / 1000) ^ (n - 1)) + 4 * flushC c * n ≤
      3 * mulEps c * ((g / 3 + 6 : ℕ) : ℚ) + 10 ^ (-(c.digits10 : ℤ)) * (1 / 1000) + 400000 * flushC c := by
    intro n _ h2
    have a1 : ((min n (g / 3 + 6) : ℕ) : ℚ) ≤ ((g / 3 + 6 : ℕ) : ℚ) := by exact_mod_cast min_le_right _ _
    have a2 : (n : ℚ) ≤ 100000 := by exact_mod_cast h2
    have a3 : (0 : ℚ) < (1 / 1000) ^ (n - 1) := by positivity
    have b1 := mul_le_mul_of_nonneg_left a1 (show 0 ≤ 3 * mulEps c by positivity)
    have b2 := mul_le_mul_of_nonneg_left a2 (show 0 ≤ 4 * flushC c by positivity)
    have b3 := mul_pos hε0 a3
    linarith
  intro fuel
  induction fuel with
  | zero =>
    intro n t h hi hn
    refine ⟨hi.fh, n, by omega, le_trans hi.eh (ehB n hi.two (by omega)), Or.inr (by omega)⟩
  | succ fuel ih =>
    intro n t h hi hn
    have hn2 := hi.two
    obtain ⟨k, rfl⟩ : ∃ k, n = k + 1 := ⟨n - 1, by omega⟩
    set t' := divULL c est fdig (mulAssign c t xh) (k + 1) with ht'
    -- the new term
    have hT := expTerm_succ (xh.val c) k
    have hTle := expTerm_le hz (k + 1) (by omega)
    have heti := hi.et
    rw [Nat.add_sub_cancel] at heti
    have hp : (0 : ℚ) < (1 / 1000) ^ k := by positivity
    have hν : (2 : ℚ) ≤ ((k + 1 : ℕ) : ℚ) := by exact_mod_cast hn2
    have hp1 : (1 / 1000 : ℚ) ^ (k + 1) = (1 / 1000) ^ k / 1000 := by rw [pow_succ]; ring
    have hnew : Full c t' ∧ |t'.val c - expTerm (xh.val c) (k + 1)| ≤ 10 ^ (-(c.digits10 : ℤ)) * (1 / 1000) ^ (k + 1) + 4 * flushC c ∧
        (t'.val c ≠ 0 → t.val c ≠ 0) := by
      by_cases ht0 : t.val c = 0
      · have hz0 := hi.ft.toWF.isZero_iff.mpr ht0
        obtain ⟨m1, m2⟩ := mulAssign_zero hi.ft hx (Or.inl hz0) hok hx1 hx2
        obtain ⟨d1, d2⟩ := divULL_zero (est := est) (fdig := fdig) m2 m1 (show 0 < k + 1 by omega)
        refine ⟨d1, ?_, fun h => absurd d2 h⟩
        rw [← ht'] at d2
        rw [hT, hp1]
        refine term_step (t := 0) (m := 0) (q := (1 / 1000) ^ k) hν hz hε0.le hε1 hμ0.le hμε hφ0.le hp.le ?_ (by rw [ht0] at heti; exact heti) ?_ ?_
        · rw [← hT]; rw [hp1] at hTle; exact hTle
        · simp; exact hφ0.le
        · rw [d2]; simp; exact hφ0.le
      · have hsm := hi.small ht0
        have hkB : k + 1 < c.B := by omega
        obtain ⟨m1, m2⟩ := mul_op hi.ft hx hok hE hM hx1 hx2 (by
          intro h1 h2
          have a1 := hi.ft.toWF.abs_ge (isZero_false_of_val hi.ft.toWF h1)
          have a2 := hx.toWF.abs_ge (isZero_false_of_val hx.toWF h2)
          have a3 : |t.val c| ≤ 1 := by
            have b1 : |expTerm (xh.val c) k| ≤ 1 / 2 := by
              rcases Nat.lt_or_ge k 2 with hk | hk
              · have : k = 1 := by omega
                rw [this]; unfold expTerm; simp; linarith
              · have := expTerm_le hz k hk
                have : (1 / 1000 : ℚ) ^ k ≤ 1 := pow_le_one₀ (by norm_num) (by norm_num)
                linarith
            have b2 := abs_add_le (expTerm (xh.val c) k) (t.val c - expTerm (xh.val c) k)
            rw [add_sub_cancel] at b2
            have b3 : (10 : ℚ) ^ (-(c.digits10 : ℤ)) * (1 / 1000) ^ k ≤ 1 / 1000 * 1 :=
              mul_le_mul hε1 (pow_le_one₀ (by norm_num) (by norm_num)) hp.le (by norm_num)
            linarith
          have a4 : (10 : ℚ) ^ (t.exp + xh.exp) ≤ 1 := by
            rw [zpow_add₀ (by norm_num)]
            calc (10 : ℚ) ^ t.exp * 10 ^ xh.exp ≤ 1 * 1 := mul_le_mul (le_trans a1 a3) (by linarith) (by positivity) (by norm_num)
              _ = 1 := by norm_num
          rw [← zpow_zero (10 : ℚ), zpow_le_zpow_iff_right₀ (by norm_num)] at a4
          have := c.ed_pos
          omega)
        obtain ⟨d1, d2⟩ := divU_op (est := est) (fdig := fdig) m1 (show 0 < k + 1 by omega) hkB (by omega)
        rw [← ht'] at d1 d2
        refine ⟨d1, ?_, fun _ => ht0⟩
        rw [hT, hp1]
        refine term_step (q := (1 / 1000) ^ k) hν hz hε0.le hε1 hμ0.le hμε hφ0.le hp.le ?_ heti m2 d2
        rw [← hT]; rw [hp1] at hTle; exact hTle
    obtain ⟨ft', et', hnz⟩ := hnew
    have hsum : expSum (xh.val c) (k + 1 + 1) = expSum (xh.val c) (k + 1) + expTerm (xh.val c) (k + 1) := by
      unfold expSum; rw [sum_range_succ]
    have hpk : (1 / 1000 : ℚ) ^ (k + 1) ≤ 1 / 1000 := by
      rw [hp1]
      have : (1 / 1000 : ℚ) ^ k ≤ 1 := pow_le_one₀ (by norm_num) (by norm_num)
      linarith
    have hεp : (10 : ℚ) ^ (-(c.digits10 : ℤ)) * (1 / 1000) ^ (k + 1) ≤ 10 ^ (-(c.digits10 : ℤ)) * (1 / 1000) :=
      mul_le_mul_of_nonneg_left hpk hε0.le
    have hun : expLoop c est fdig g xh (fuel + 1) (k + 1) t h =
        if k + 1 > 4 ∧ max 0 (-ilogb t') > (g : ℤ) then h else expLoop c est fdig g xh fuel (k + 1 + 1) t' (addAssign c h t') := rfl
    rw [hun]
    split
    · next hbr =>
      refine ⟨hi.fh, k + 1, by omega, le_trans hi.eh (ehB (k + 1) hn2 (by omega)), Or.inl ?_⟩
      have h1 : |t'.val c| ≤ 10 ^ (-(g : ℤ)) := by
        by_cases h0 : t'.val c = 0
        · rw [h0, abs_zero]; positivity
        · have := (ilogb_order c t' ft'.toWF h0).2
          refine le_trans this.le (zpow_le_zpow_right₀ (by norm_num) ?_)
          omega
      have h2 := abs_add_le (t'.val c) (expTerm (xh.val c) (k + 1) - t'.val c)
      rw [add_sub_cancel, abs_sub_comm (expTerm _ _)] at h2
      linarith
    · next hbr =>
      apply ih _ _ _ _ (by omega)
      obtain ⟨a1, a2, a3⟩ := add_op hi.fh ft'
      refine ⟨by omega, ft', a1, by rw [Nat.add_sub_cancel]; exact et', ?_, ?_⟩
      · intro h0
        by_cases hk4 : k + 1 > 4
        · right
          have hg : -ilogb t' ≤ (g : ℤ) := by
            by_contra hc
            exact hbr ⟨hk4, by omega⟩
          have h1 := (ilogb_order c t' ft'.toWF h0).1
          have h2 : (10 : ℚ) ^ (-(g : ℤ)) ≤ |t'.val c| := le_trans (zpow_le_zpow_right₀ (by norm_num) (by omega)) h1
          have h3 := abs_add_le (expTerm (xh.val c) (k + 1)) (t'.val c - expTerm (xh.val c) (k + 1))
          rw [add_sub_cancel] at h3
          have h4 : (10 : ℚ) ^ (-(c.digits10 : ℤ)) * (1 / 1000) ^ (k + 1) ≤ 1 / 1000 * (1 / 1000) ^ (k + 1) :=
            mul_le_mul_of_nonneg_right hε1 (by positivity)
          have h5 : (10 : ℚ) ^ (-(g : ℤ)) ≤ (1 / 1000) ^ (k + 1) := by linarith
          have h6 : ((1 : ℚ) / 1000) ^ (k + 1) = 10 ^ (-(3 * ((k + 1 : ℕ) : ℤ))) := by
            rw [show (1 : ℚ) / 1000 = 10 ^ (-3 : ℤ) by norm_num, ← zpow_natCast, ← zpow_mul]
            congr 1
          rw [h6, zpow_le_zpow_iff_right₀ (by norm_num)] at h5
          omega
        · left; omega
      · rw [hsum, Nat.add_sub_cancel]
        have hih := hi.eh
        rw [Nat.add_sub_cancel] at hih
        have hpos : (0 : ℚ) ≤ 3 * mulEps c := by positivity
        have e1 : |(addAssign c h t').val c - (h.val c + t'.val c)| ≤
            3 * mulEps c * (((min (k + 1 + 1) (g / 3 + 6) : ℕ) : ℚ) - ((min (k + 1) (g / 3 + 6) : ℕ) : ℚ)) := by
          by_cases h0 : t'.val c = 0
          · rw [a3 h0, h0, add_zero, sub_self, abs_zero]
            apply mul_nonneg hpos
            have : ((min (k + 1) (g / 3 + 6) : ℕ) : ℚ) ≤ ((min (k + 1 + 1) (g / 3 + 6) : ℕ) : ℚ) := by
              exact_mod_cast (by omega : min (k + 1) (g / 3 + 6) ≤ min (k + 1 + 1) (g / 3 + 6))
            linarith
          · have hsm := hi.small (hnz h0)
            have m1 : min (k + 1 + 1) (g / 3 + 6) = k + 1 + 1 := by omega
            have m2 : min (k + 1) (g / 3 + 6) = k + 1 := by omega
            rw [m1, m2]
            have : (((k + 1 + 1 : ℕ) : ℚ) - ((k + 1 : ℕ) : ℚ)) = 1 := by push_cast; ring
            rw [this, mul_one]
            refine le_trans a2 ?_
            have s1 := expSum_le hz (k + 1)
            have s2 : (0 : ℚ) < (1 / 2) ^ (k + 1) := by positivity
            have s3 := abs_add_le (expSum (xh.val c) (k + 1)) (h.val c - expSum (xh.val c) (k + 1))
            rw [add_sub_cancel] at s3
            have s4 := ehB (k + 1) hn2 (by omega)
            rw [Nat.add_sub_cancel] at s4
            have s5 := abs_add_le (expTerm (xh.val c) (k + 1)) (t'.val c - expTerm (xh.val c) (k + 1))
            rw [add_sub_cancel] at s5
            have s6 : (10 : ℚ) ^ (-(c.digits10 : ℤ)) * (1 / 1000) ≤ 1 / 1000 * (1 / 1000) := mul_le_mul_of_nonneg_right hε1 (by norm_num)
            have s7 : |h.val c| + |t'.val c| ≤ 3 := by linarith
            have := mul_le_mul_of_nonneg_left s7 hμ0.le
            linarith
        have e2 : |(addAssign c h t').val c - (expSum (xh.val c) (k + 1) + expTerm (xh.val c) (k + 1))| ≤
            |(addAssign c h t').val c - (h.val c + t'.val c)| + |h.val c - expSum (xh.val c) (k + 1)| +
            |t'.val c - expTerm (xh.val c) (k + 1)| := by
          have b1 := abs_add_le ((addAssign c h t').val c - (h.val c + t'.val c)) (h.val c - expSum (xh.val c) (k + 1))
          have b2 := abs_add_le ((addAssign c h t').val c - (h.val c + t'.val c) + (h.val c - expSum (xh.val c) (k + 1)))
            (t'.val c - expTerm (xh.val c) (k + 1))
          rw [show (addAssign c h t').val c - (h.val c + t'.val c) + (h.val c - expSum (xh.val c) (k + 1)) +
            (t'.val c - expTerm (xh.val c) (k + 1)) = (addAssign c h t').val c - (expSum (xh.val c) (k + 1) + expTerm (xh.val c) (k + 1)) by ring] at b2
          linarith
        have e3 : (10 : ℚ) ^ (-(c.digits10 : ℤ)) * (1 / 1000 - (1 / 1000) ^ (k + 1)) =
            10 ^ (-(c.digits10 : ℤ)) * (1 / 1000 - (1 / 1000) ^ k) + 999 * (10 ^ (-(c.digits10 : ℤ)) * (1 / 1000) ^ (k + 1)) := by
          rw [hp1]; ring
        have e4 : 0 ≤ (10 : ℚ) ^ (-(c.digits10 : ℤ)) * (1 / 1000) ^ (k + 1) := by positivity
        rw [e3]
        push_cast at *
        linarith

end WD
