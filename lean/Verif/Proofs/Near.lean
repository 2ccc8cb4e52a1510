import Verif.Proofs.Inv
import Verif.Proofs.Add5
/-
  Addition at reduced precision: the result against the exact sum, provided that no carry leaves the first limb. Used for
  the coupled Newton iteration of the square root.
-/
namespace WD
open DW

/-- `r` stands for `S` up to `e`: either a non-zero well-formed number of magnitude at least `10^lo` and precision at least
    `p`, or an object the code takes for zero. -/
def Approx (c : Cfg) (p : ℕ) (lo : ℤ) (r : DW) (S e : ℚ) : Prop :=
  (WF c r ∧ r.isZero = false ∧ p ≤ r.prec ∧ (10 : ℚ) ^ lo ≤ |r.val c| ∧ |r.val c - S| ≤ e) ∨
  (r.isZero = true ∧ r.exp = 0 ∧ Pre c r ∧ p ≤ r.prec ∧ |S| ≤ e)

theorem justify_mant_zero {c : Cfg} {w : DW} {p : ℕ} (hw : Pre c w) (hp1 : 1 ≤ p) (hp : p ≤ c.N) (hD : w.mantp c p = 0) :
    (justify c p w).isZero = true ∧ (justify c p w).exp = 0 ∧ Pre c (justify c p w) ∧ w.prec ≤ (justify c p w).prec := by
  have hall : ∀ d ∈ w.data.take p, d = 0 := by
    by_contra hc
    have hv : ValidLimbs c.B (w.data.take p) := fun d hd => hw.valid d (List.mem_of_mem_take hd)
    push Not at hc
    obtain ⟨d, hd, hd0⟩ := hc
    have : limbsVal c.B (w.data.take p) ≠ 0 := by
      intro h
      apply hd0
      clear hd0 hD hv
      generalize w.data.take p = l at *
      induction l with
      | nil => simp at hd
      | cons a as ih =>
        rw [limbsVal_cons] at h
        have hB := c.B_pos
        have h1 : a * c.B ^ as.length = 0 := by omega
        have h2 : limbsVal c.B as = 0 := by omega
        have ha : a = 0 := by
          rcases Nat.mul_eq_zero.mp h1 with h | h
          · exact h
          · exact absurd h (by positivity)
        rcases List.mem_cons.mp hd with h | h
        · rw [h]; exact ha
        · exact ih h h2
    exact this hD
  have hlz : leadZeros (w.data.take p) = (w.data.take p).length := leadZeros_eq_length.mpr hall
  have hlen : (w.data.take p).length = p := take_length' hw.len hp
  have hd0 : w.data.headD 0 = 0 := by
    cases h : w.data with
    | nil => rfl
    | cons a as =>
      apply hall
      rw [h]
      cases p with
      | zero => omega
      | succ n => simp
  unfold justify
  have hne : ¬ (w.data.take p).length = 0 := by omega
  simp only [hlz, hne, if_true, if_false]
  have hz : (zero c).isZero = true := (zero_WF c).toWF.isZero_iff.mpr (zero_val c)
  split
  · exact ⟨hz, rfl, (zero_WF c).toWF.pre, by have := (zero_WF c).full; rw [this]; exact hw.precN⟩
  · refine ⟨?_, rfl, ⟨hw.len, hw.valid, dvd_zero _, hw.prec2, hw.precN⟩, le_refl _⟩
    show (w.data.headD 0 == 0) = true
    rw [hd0]; rfl

/-- Sum of two numbers of opposite sign at any precision. -/
theorem addOpp_near {c : Cfg} {u v : DW} (hu : WF c u) (hv : WF c v) (huz : u.isZero = false) (hvz : v.isZero = false)
    (hs : u.neg ≠ v.neg) {p : ℕ} (hp1 : 1 ≤ p) (hp : p ≤ c.N) (hpu : p ≤ u.prec) {ofs : ℤ} (ho : u.exp - v.exp = ofs * c.ed)
    (hlt : ofs.natAbs < p) :
    Approx c p (max u.exp v.exp - c.ed * ((p : ℤ) - 1)) (addOpp c p ofs u v) (u.val c + v.val c)
      (3 * (10 ^ max u.exp v.exp * eta c p)) := by
  have hed : (0 : ℤ) < c.ed := by exact_mod_cast c.ed_pos
  -- the common part
  have key : ∀ (a b w : DW) (k : ℕ), WF c a → WF c b → Pre c w → a.exp - b.exp = (k : ℤ) * c.ed → w.exp = a.exp → w.neg = a.neg →
      a.neg ≠ b.neg → u.prec = w.prec → b.mantp c p / c.B ^ k ≤ a.mantp c p →
      w.mantp c p = a.mantp c p - b.mantp c p / c.B ^ k → max u.exp v.exp = a.exp →
      Approx c p (max u.exp v.exp - c.ed * ((p : ℤ) - 1)) (justify c p w) (a.val c + b.val c)
        (3 * (10 ^ max u.exp v.exp * eta c p)) := by
    intro a b w k ha hb hw hab hwe hwn hab' hpr hle hwm hmx
    obtain ⟨d1, d2⟩ := aligned_diff hab hle
    have hwl : w.lexpp c p = a.lexpp c p := by unfold lexpp; rw [hwe]
    have hwa2 : w.absp c p = ((a.mantp c p - b.mantp c p / c.B ^ k : ℕ) : ℚ) * 10 ^ a.lexpp c p := by
      unfold absp; rw [hwm, hwl]
    rw [← hwa2] at d1 d2
    have hl := lexpp_eq c p a
    have hbl : (10 : ℚ) ^ b.lexpp c p ≤ 10 ^ a.lexpp c p := by
      apply zpow_le_zpow_right₀ (by norm_num)
      have : (0 : ℤ) ≤ (k : ℤ) * c.ed := by positivity
      unfold lexpp; linarith
    have a1 := ha.absp_le hp
    have a2 := ha.lt_absp hp
    have b1 := hb.absp_le hp
    have b2 := hb.lt_absp hp
    have w1 := abs_val_split hw.len hp
    have w2 := drop_lt hw.len hw.valid hp
    rw [hwl] at w2
    have w3 : (0 : ℚ) ≤ limbsVal c.B (w.data.drop p) * 10 ^ w.lexp c := by positivity
    have hS : a.val c + b.val c = (if a.neg then -1 else 1) * (|a.val c| - |b.val c|) := by
      rw [val_sgn c a, val_sgn c b, abs_mul, abs_mul, abs_abs, abs_abs]
      cases h1 : a.neg <;> cases h2 : b.neg <;> rw [h1, h2] at hab' <;> simp at hab' ⊢ <;> ring
    rw [hmx, ← hl]
    by_cases hD : w.mantp c p = 0
    · obtain ⟨j1, j2, jp, j3⟩ := justify_mant_zero hw hp1 hp hD
      right
      refine ⟨j1, j2, jp, by omega, ?_⟩
      have : w.absp c p = 0 := by unfold absp; rw [hD]; simp
      rw [this] at d1 d2
      rw [hS, abs_mul]
      have : |(if a.neg = true then (-1 : ℚ) else 1)| = 1 := by split <;> simp
      rw [this, one_mul, abs_le]
      constructor <;> linarith
    · obtain ⟨j1, j2, j3, j4, -, j6⟩ := justify_spec hw hp hD
      left
      refine ⟨j1, j6, by omega, ?_, ?_⟩
      · rw [j4, w1]
        have : (1 : ℚ) ≤ w.mantp c p := by exact_mod_cast Nat.one_le_iff_ne_zero.mpr hD
        have h1 : (10 : ℚ) ^ a.lexpp c p ≤ w.absp c p := by
          unfold absp; rw [hwl]
          have := mul_le_mul_of_nonneg_right this (p10_pos (a.lexpp c p)).le
          linarith
        have h2 : a.exp - (c.ed : ℤ) * ((p : ℤ) - 1) = a.lexpp c p := by unfold lexpp; ring
        rw [h2]; linarith
      · rw [j4, val_sgn c w, hwn, hS, ← mul_sub, abs_mul]
        have : |(if a.neg = true then (-1 : ℚ) else 1)| = 1 := by split <;> simp
        rw [this, one_mul, abs_le, w1]
        constructor <;> linarith
  have hk0 : ∀ k : ℕ, (0 : ℤ) ≤ (k : ℤ) * c.ed := fun k => by positivity
  rcases addOpp_cases hu hv huz hvz hp1 hp ho hlt with
    ⟨w, k, a1, a2, a3, a4, a5, a6, a7, a8, a9, -⟩ | ⟨w, k, a1, a2, a3, a4, a5, a6, a7, a8, a9, -⟩
  · rw [a1]
    exact key u v w k hu hv a2 a4 a5 a6 hs a7.symm a8.le a9 (max_eq_left (by have := hk0 k; omega))
  · rw [a1, add_comm]
    exact key v u w k hv hu a2 a4 a5 a6 (Ne.symm hs) a7.symm a8 a9 (max_eq_right (by have := hk0 k; omega))

/-- Sum of two numbers of the same sign at any precision when no carry leaves the first limb. -/
theorem addSame_near {c : Cfg} {u v : DW} (hu : WF c u) (hv : WF c v) (huz : u.isZero = false) (hvz : v.isZero = false)
    (hs : u.neg = v.neg) {p : ℕ} (hp1 : 1 ≤ p) (hp : p ≤ c.N) (hpu : p ≤ u.prec) {ofs : ℤ} (ho : u.exp - v.exp = ofs * c.ed)
    (hlt : ofs.natAbs < p) (hcy : |u.val c| + |v.val c| < 10 ^ (max u.exp v.exp + (c.ed : ℤ))) :
    Approx c p (max u.exp v.exp - c.ed * ((p : ℤ) - 1)) (addSame c p ofs u v) (u.val c + v.val c)
      (3 * (10 ^ max u.exp v.exp * eta c p)) := by
  have hed : (0 : ℤ) < c.ed := by exact_mod_cast c.ed_pos
  have key : ∀ (a b : DW) (k : ℕ) (s : List ℕ × ℕ), WF c a → WF c b → a.isZero = false → a.exp - b.exp = (k : ℤ) * c.ed →
      a.neg = b.neg → a.neg = u.neg → max u.exp v.exp = a.exp → |a.val c| + |b.val c| = |u.val c| + |v.val c| →
      s.1.length = p → ValidLimbs c.B s.1 → limbsVal c.B s.1 + s.2 * c.B ^ p = a.mantp c p + b.mantp c p / c.B ^ k →
      Approx c p (max u.exp v.exp - c.ed * ((p : ℤ) - 1))
        (if s.2 ≠ 0 then { u with data := carryIn c.N p (s.1 ++ u.data.drop p) s.2, exp := a.exp + c.ed }
          else { u with data := s.1 ++ u.data.drop p, exp := a.exp }) (a.val c + b.val c)
        (3 * (10 ^ max u.exp v.exp * eta c p)) := by
    intro a b k s ha hb haz hab hab' hau hmx hsum s1 s2 s4
    obtain ⟨b1, b2⟩ := aligned_sum (p := p) hab
    have hl := lexpp_eq c p a
    have hbl : (10 : ℚ) ^ b.lexpp c p ≤ 10 ^ a.lexpp c p := by
      apply zpow_le_zpow_right₀ (by norm_num)
      have : (0 : ℤ) ≤ (k : ℤ) * c.ed := by positivity
      unfold lexpp; linarith
    have e1 := ha.absp_le hp
    have e2 := ha.lt_absp hp
    have e3 := hb.absp_le hp
    have e4 := hb.lt_absp hp
    have hlp := p10_pos (a.lexpp c p)
    have hc0 : s.2 = 0 := by
      by_contra hc
      have h1 : c.B ^ p ≤ a.mantp c p + b.mantp c p / c.B ^ k := by
        rw [← s4]
        have : 1 * c.B ^ p ≤ s.2 * c.B ^ p := Nat.mul_le_mul_right _ (Nat.one_le_iff_ne_zero.mpr hc)
        omega
      have h2 : ((c.B : ℚ)) ^ p ≤ ((a.mantp c p + b.mantp c p / c.B ^ k : ℕ) : ℚ) := by exact_mod_cast h1
      have h3 := c.p10_mul_B (a.lexpp c p) p
      have h4 : a.lexpp c p + (c.ed : ℤ) * ((p : ℕ) : ℤ) = a.exp + c.ed := by unfold lexpp; ring
      rw [h4] at h3
      have h5 := mul_le_mul_of_nonneg_right h2 hlp.le
      rw [hmx, ← hsum, ← h3] at hcy
      rw [mul_comm] at hcy
      linarith
    rw [if_neg (by simp [hc0])]
    rw [hc0] at s4
    simp only [zero_mul, add_zero] at s4
    set r : DW := { u with data := s.1 ++ u.data.drop p, exp := a.exp } with hr
    have hlen : r.data.length = c.N := by
      show (s.1 ++ u.data.drop p).length = _
      rw [List.length_append, s1, List.length_drop, hu.len]; omega
    have hval : ValidLimbs c.B r.data := validLimbs_append.mpr ⟨s2, hu.valid.drop p⟩
    have htk : r.data.take p = s.1 := by
      show (s.1 ++ u.data.drop p).take p = _
      rw [List.take_append_of_le_length (by omega), List.take_of_length_le (by omega)]
    have hmp : r.mantp c p = a.mantp c p + b.mantp c p / c.B ^ k := by
      unfold mantp; rw [htk]; exact s4
    have hrl : r.lexpp c p = a.lexpp c p := rfl
    have hra : r.absp c p = ((a.mantp c p + b.mantp c p / c.B ^ k : ℕ) : ℚ) * 10 ^ a.lexpp c p := by
      unfold absp; rw [hmp, hrl]
    have w1 := abs_val_split hlen hp
    have w2 := drop_lt hlen hval hp
    rw [hrl] at w2
    have w3 : (0 : ℚ) ≤ limbsVal c.B (r.data.drop p) * 10 ^ r.lexp c := by positivity
    have hge : c.B ^ (p - 1) ≤ r.mantp c p := by
      rw [hmp]; exact le_trans (ha.mantp_ge haz hp1 hp) (Nat.le_add_right _ _)
    have hnz : r.isZero = false := by
      show (r.data.headD 0 == 0) = false
      rw [beq_eq_false_iff_ne]
      intro h0
      have h1 : limbsVal c.B s.1 < c.B ^ (p - 1) := by
        cases hs1 : s.1 with
        | nil => rw [hs1] at s1; simp at s1; omega
        | cons x xs =>
          have hx : x = 0 := by
            have : (s.1 ++ u.data.drop p).headD 0 = x := by rw [hs1]; rfl
            rw [← this]; exact h0
          rw [limbsVal_cons, hx, zero_mul, zero_add]
          rw [hs1] at s1 s2
          have := limbsVal_lt (validLimbs_cons.mp s2).2
          simp only [List.length_cons] at s1
          have : xs.length = p - 1 := by omega
          rw [← this]; assumption
      have : r.mantp c p = limbsVal c.B s.1 := by unfold mantp; rw [htk]
      omega
    have hrp : r.prec = u.prec := rfl
    have hw : WF c r := ⟨hlen, hval, ha.dvd, hrp ▸ hu.prec2, hrp ▸ hu.precN, fun h => absurd hnz (by
      have : r.isZero = true := by
        show (r.data.headD 0 == 0) = true
        rw [beq_iff_eq]; exact h
      rw [this]; simp)⟩
    have h1 : (1 : ℚ) ≤ r.mantp c p := by
      have : 1 ≤ r.mantp c p := le_trans (Nat.one_le_pow _ _ c.B_pos) hge
      exact_mod_cast this
    have hS : a.val c + b.val c = (if a.neg then -1 else 1) * (|a.val c| + |b.val c|) := by
      rw [val_sgn c a, val_sgn c b, abs_mul, abs_mul, abs_abs, abs_abs, ← hab']
      cases h1 : a.neg <;> simp <;> ring
    left
    rw [hmx, ← hl]
    refine ⟨hw, hnz, by rw [hrp]; exact hpu, ?_, ?_⟩
    · have h3 : (10 : ℚ) ^ a.lexpp c p ≤ r.absp c p := by
        unfold absp; rw [hrl]
        have := mul_le_mul_of_nonneg_right h1 hlp.le
        linarith
      have h2 : a.exp - (c.ed : ℤ) * ((p : ℤ) - 1) = a.lexpp c p := by unfold lexpp; ring
      rw [h2, w1]; linarith
    · have hrn : r.neg = a.neg := by rw [hau]
      rw [val_sgn c r, hrn, hS, ← mul_sub, abs_mul]
      have : |(if a.neg = true then (-1 : ℚ) else 1)| = 1 := by split <;> simp
      rw [this, one_mul, abs_le, w1, hra]
      rw [add_mul, one_mul] at b2
      constructor <;> linarith
  have hk0 : ∀ k : ℕ, (0 : ℤ) ≤ (k : ℤ) * c.ed := fun k => by positivity
  by_cases h0 : 0 ≤ ofs
  · obtain ⟨k, rfl⟩ := Int.eq_ofNat_of_zero_le h0
    obtain ⟨s1, s2, s3, s4⟩ := addN_aligned hu.pre hv.pre hp (k := k) (by omega)
    have := key u v k _ hu hv huz ho hs rfl (max_eq_left (by have := hk0 k; omega)) rfl s1 s2 s4
    unfold addSame
    simp only [h0, if_true, Int.toNat_natCast]
    exact this
  · obtain ⟨k, hk⟩ := Int.eq_ofNat_of_zero_le (show 0 ≤ -ofs by omega)
    have ho' : v.exp - u.exp = (k : ℤ) * c.ed := by rw [← hk]; linarith
    obtain ⟨s1, s2, s3, s4⟩ := addN_aligned hv.pre hu.pre hp (k := k) (by omega)
    have := key v u k _ hv hu hvz ho' hs.symm hs.symm (max_eq_right (by have := hk0 k; omega)) (add_comm _ _) s1 s2 s4
    unfold addSame
    simp only [h0, if_false, hk, Int.toNat_natCast]
    rw [addN, addN_comm_len, ← addN, add_comm (u.val c)]
    exact this

/-- `operator+=` at any precision. The bound is relative to the larger operand. -/
theorem add_near {c : Cfg} {u v : DW} (hu : WF c u) (hv : WF c v) (huz : u.isZero = false) (hvz : v.isZero = false)
    {p : ℕ} (hp : p = min u.prec v.prec)
    (hcy : p < c.N → u.neg = v.neg → |u.val c| + |v.val c| < 10 ^ (max u.exp v.exp + (c.ed : ℤ))) :
    Approx c p (max u.exp v.exp - c.ed * ((p : ℤ) - 1)) (addAssign c u v) (u.val c + v.val c)
      (3 * (max |u.val c| |v.val c| * eta c p)) := by
  have hp2 : 2 ≤ p := by have := hu.prec2; have := hv.prec2; omega
  have hpN : p ≤ c.N := by have := hu.precN; omega
  have hed : (0 : ℤ) < c.ed := by exact_mod_cast c.ed_pos
  have hη := eta_pos c p
  have hpp : (0 : ℤ) < (p : ℤ) * c.ed := by have : (0 : ℤ) < p := by omega
                                            positivity
  have hu1 := hu.abs_ge huz
  have hv1 := hv.abs_ge hvz
  have hM : (10 : ℚ) ^ max u.exp v.exp ≤ max |u.val c| |v.val c| := by
    rcases max_cases u.exp v.exp with ⟨h, -⟩ | ⟨h, -⟩ <;> rw [h]
    · exact le_trans hu1 (le_max_left _ _)
    · exact le_trans hv1 (le_max_right _ _)
  have hMe : 3 * (10 ^ max u.exp v.exp * eta c p) ≤ 3 * (max |u.val c| |v.val c| * eta c p) :=
    mul_le_mul_of_nonneg_left (mul_le_mul_of_nonneg_right hM hη.le) (by norm_num)
  have weaken : ∀ {r S}, Approx c p (max u.exp v.exp - c.ed * ((p : ℤ) - 1)) r S (3 * (10 ^ max u.exp v.exp * eta c p)) →
      Approx c p (max u.exp v.exp - c.ed * ((p : ℤ) - 1)) r S (3 * (max |u.val c| |v.val c| * eta c p)) := by
    rintro r S (⟨a, b, d, e, f⟩ | ⟨a, b, d, e, f⟩)
    · exact Or.inl ⟨a, b, d, e, le_trans f hMe⟩
    · exact Or.inr ⟨a, b, d, e, le_trans f hMe⟩
  have far : ∀ a b : DW, WF c a → WF c b → a.isZero = false → (p : ℤ) * c.ed ≤ a.exp - b.exp → p ≤ a.prec →
      max u.exp v.exp = a.exp → u.val c + v.val c = a.val c + b.val c → max |u.val c| |v.val c| = max |a.val c| |b.val c| →
      Approx c p (max u.exp v.exp - c.ed * ((p : ℤ) - 1)) a (u.val c + v.val c) (3 * (max |u.val c| |v.val c| * eta c p)) := by
    intro a b ha hb haz hfar hpa hmx hsum hmax
    left
    have h1 := ha.abs_ge haz
    have h2 := hb.abs_lt
    have h3 : (10 : ℚ) ^ (b.exp + (c.ed : ℤ)) ≤ 10 ^ a.exp * eta c p := by
      unfold eta
      rw [← zpow_add₀ (by norm_num)]
      apply zpow_le_zpow_right₀ (by norm_num)
      linarith
    refine ⟨ha, haz, hpa, ?_, ?_⟩
    · rw [hmx]
      refine le_trans (zpow_le_zpow_right₀ (by norm_num) ?_) h1
      have : (0 : ℤ) ≤ (c.ed : ℤ) * ((p : ℤ) - 1) := mul_nonneg hed.le (by omega)
      linarith
    · rw [hsum, hmax, show a.val c - (a.val c + b.val c) = -b.val c by ring, abs_neg]
      have h4 := mul_le_mul_of_nonneg_right (le_trans h1 (le_max_left _ |b.val c|)) hη.le
      have h5 : (0 : ℚ) ≤ max |a.val c| |b.val c| * eta c p := mul_nonneg (le_trans (abs_nonneg _) (le_max_left _ _)) hη.le
      linarith
  obtain ⟨k, hk⟩ := exp_sub_dvd hu hv
  unfold addAssign
  simp only [huz, hvz, Bool.false_eq_true, if_false, false_or, ← hp]
  split
  · next h => exact far u v hu hv huz h.2 (by omega) (max_eq_left (by omega)) rfl rfl
  · next h =>
    split
    · next h2 =>
      exact far v u hv hu hvz (by omega) (by omega) (max_eq_right (by omega)) (add_comm _ _) (max_comm _ _)
    · next h2 =>
      rw [ofs_eq hk]
      have hlt : k.natAbs < p := by
        by_contra hh
        have h1 : (p : ℤ) ≤ |k| := by rw [Int.abs_eq_natAbs]; omega
        have h2' : (p : ℤ) * c.ed ≤ |k| * c.ed := mul_le_mul_of_nonneg_right h1 hed.le
        have h3 : |u.exp - v.exp| = |k| * c.ed := by rw [hk, abs_mul, abs_of_pos hed]
        rcases abs_cases (u.exp - v.exp) with h4 | h4 <;> omega
      split
      · next hs =>
        by_cases hpN' : p < c.N
        · exact weaken (addSame_near hu hv huz hvz hs (by omega) hpN (by omega) hk hlt (hcy hpN' hs))
        · have hpe : p = c.N := by omega
          obtain ⟨q1, q2, q3, q4, q5, q6, q7, q8⟩ := addSame_full hu hv huz hvz hk (by omega)
          rw [hpe]
          generalize addSame c c.N k u v = r at *
          left
          have hr1 := q1.abs_ge q4
          have hmaxr : max u.exp v.exp ≤ r.exp := max_le q5 q6
          refine ⟨q1, q4, by omega, ?_, ?_⟩
          · refine le_trans (zpow_le_zpow_right₀ (by norm_num) ?_) hr1
            have : (0 : ℤ) ≤ (c.ed : ℤ) * ((c.N : ℤ) - 1) := mul_nonneg hed.le (by omega)
            linarith
          · have hulp : r.ulp c ≤ |r.val c| * eta c c.N := by
              have : r.ulp c = 10 ^ r.exp * eta c c.N := by rw [ulp_eq, ← lexpp_N, lexpp_eq]
              rw [this]; exact mul_le_mul_of_nonneg_right hr1 (eta_pos _ _).le
            have hS : u.val c + v.val c = (if u.neg then -1 else 1) * (|u.val c| + |v.val c|) := by
              rw [val_sgn c u, val_sgn c v, abs_mul, abs_mul, abs_abs, abs_abs, ← hs]
              cases h1 : u.neg <;> simp <;> ring
            rw [val_sgn c r, q2, hS, ← mul_sub, abs_mul]
            have : |(if u.neg = true then (-1 : ℚ) else 1)| = 1 := by split <;> simp
            rw [this, one_mul, abs_le]
            have hm1 := le_max_left |u.val c| |v.val c|
            have hm2 := le_max_right |u.val c| |v.val c|
            have hη' := eta_pos c c.N
            have hm3 : |r.val c| * eta c c.N ≤ 2 * max |u.val c| |v.val c| * eta c c.N :=
              mul_le_mul_of_nonneg_right (by linarith) hη'.le
            have hm4 : 0 ≤ max |u.val c| |v.val c| * eta c c.N := mul_nonneg (le_trans (abs_nonneg _) hm1) hη'.le
            constructor <;> linarith
      · next hs =>
        exact weaken (addOpp_near hu hv huz hvz hs (by omega) hpN (by omega) hk hlt)

/-- `operator*=` at any precision, relative to the exact product. -/
theorem mul_near {c : Cfg} {u v : DW} (hu : WF c u) (hv : WF c v) (huz : u.isZero = false) (hvz : v.isZero = false) {p : ℕ}
    (hpp : p = min u.prec v.prec) (hok : MulOk c p)
    (hlo : -(c.maxExp : ℤ) < u.exp + v.exp) (hhi : u.exp + v.exp < c.maxExp) :
    let r := mulAssign c u v
    WF c r ∧ r.isZero = false ∧ r.neg = (u.neg != v.neg) ∧ p ≤ r.prec ∧
    |r.val c - u.val c * v.val c| ≤ 3 * eta c p * (|u.val c| * |v.val c|) := by
  intro r
  obtain ⟨r1, r2, r3, r4, r5, r6⟩ := mul_rel hu hv huz hvz hpp hok hlo hhi
  have hp2 : 2 ≤ p := by have := hu.prec2; have := hv.prec2; omega
  have hpN : p ≤ c.N := by have := hu.precN; omega
  have he := eta_pos c p
  have he1 := eta_le (c := c) hp2
  have hr : mulAssign c u v = r := rfl
  rw [hr] at r1 r2 r3 r4 r5 r6
  refine ⟨r1, r2, r3, by omega, ?_⟩
  have u0 := hu.absp_pos huz (p := p) (by omega) hpN
  have v0 := hv.absp_pos hvz (p := p) (by omega) hpN
  have r0 := r1.absp_pos r2 (p := p) (by omega) hpN
  have u1 := hu.absp_le hpN
  have v1 := hv.absp_le hpN
  have rr1 := r1.absp_le hpN
  have u2 := hu.lt_absp_rel huz (p := p) (by omega) hpN
  have v2 := hv.lt_absp_rel hvz (p := p) (by omega) hpN
  have rr2 := r1.lt_absp_rel r2 (p := p) (by omega) hpN
  have hsg : r.val c - u.val c * v.val c = (if r.neg then -1 else 1) * (|r.val c| - |u.val c| * |v.val c|) := by
    rw [val_sgn c r, val_sgn c u, val_sgn c v, r3]
    simp only [abs_mul, abs_abs]
    cases u.neg <;> cases v.neg <;> simp <;> ring
  rw [hsg, abs_mul]
  have : |(if r.neg = true then (-1 : ℚ) else 1)| = 1 := by split <;> simp
  rw [this, one_mul]
  generalize |r.val c| = R at *
  generalize |u.val c| = U at *
  generalize |v.val c| = V at *
  generalize u.absp c p = a at *
  generalize v.absp c p = b at *
  generalize r.absp c p = d at *
  generalize eta c p = η at *
  have hab : a * b ≤ U * V := mul_le_mul u1 v1 v0.le (by linarith)
  have hUV : U * V ≤ a * b * ((1 + η) * (1 + η)) := by
    calc U * V ≤ (a * (1 + η)) * (b * (1 + η)) := mul_le_mul u2.le v2.le (by linarith) (by positivity)
      _ = _ := by ring
  have hUV0 : 0 < U * V := lt_of_lt_of_le (mul_pos u0 v0) hab
  rw [abs_le]
  constructor
  · -- U V ≤ d (1+η)^3
    have h1 : U * V ≤ d * (1 + η) * ((1 + η) * (1 + η)) := le_trans hUV (mul_le_mul_of_nonneg_right r6.le (by positivity))
    have h2 : (1 - 3 * η) * ((1 + η) * ((1 + η) * (1 + η))) ≤ 1 := by nlinarith [mul_pos he he, mul_pos (mul_pos he he) he, mul_pos (mul_pos (mul_pos he he) he) he]
    have h3 : U * V * (1 - 3 * η) ≤ d * (1 + η) * ((1 + η) * (1 + η)) * (1 - 3 * η) := mul_le_mul_of_nonneg_right h1 (by linarith)
    have h4 : d * ((1 - 3 * η) * ((1 + η) * ((1 + η) * (1 + η)))) ≤ d * 1 := mul_le_mul_of_nonneg_left h2 r0.le
    have h5 : d * (1 + η) * ((1 + η) * (1 + η)) * (1 - 3 * η) = d * ((1 - 3 * η) * ((1 + η) * ((1 + η) * (1 + η)))) := by ring
    nlinarith
  · have h1 : d * (1 - η / 50) ≤ U * V := le_trans r5 hab
    have h2 : (1 + η) ≤ (1 - η / 50) * (1 + 3 * η) := by nlinarith [mul_pos he he]
    have h3 : d * (1 + η) ≤ d * ((1 - η / 50) * (1 + 3 * η)) := mul_le_mul_of_nonneg_left h2 r0.le
    have h4 : d * (1 - η / 50) * (1 + 3 * η) ≤ U * V * (1 + 3 * η) := mul_le_mul_of_nonneg_right h1 (by linarith)
    nlinarith

/-- Multiplication by a small built-in factor at any precision. -/
theorem mulULL_near {c : Cfg} {x : DW} (hx : WF c x) (hxz : x.isZero = false) {n : ℕ} (h0 : 2 ≤ n) (hn : n < c.B)
    (he : x.exp + orderOf n < c.maxExp) :
    let r := mulULL c x n
    WF c r ∧ r.isZero = false ∧ r.neg = x.neg ∧ r.prec = x.prec ∧
    |r.val c - x.val c * n| ≤ 2 * eta c x.prec * (|x.val c| * n) := by
  have hB := c.B_pos
  obtain ⟨p, hp⟩ : ∃ p, x.prec = p := ⟨_, rfl⟩
  have hp2 := hx.prec2
  have hpN := hx.precN
  rw [hp] at hp2 hpN
  have hη := eta_pos c p
  have hz' : ({ x with neg := false } : DW).isZero = false := hxz
  obtain ⟨s1, s2, s3, s4⟩ := mulLoop_spec c.L hn (x.data.take p) (hx.valid.take _)
  rw [take_length' hx.len hpN] at s1 s4
  change limbsVal c.B _ + _ * c.B ^ p = x.mantp c p * n at s4
  have hdef : mulULL c x n = if (mulLoop c.L n (x.data.take p)).2 ≠ 0 then
        { x with data := (mulLoop c.L n (x.data.take p)).2 :: ((mulLoop c.L n (x.data.take p)).1.take (p - 1) ++ x.data.drop p),
                 exp := x.exp + c.ed }
      else { x with data := (mulLoop c.L n (x.data.take p)).1 ++ x.data.drop p } := by
    unfold mulULL
    simp only [hz', Bool.false_eq_true, false_or]
    rw [if_neg (by omega), if_neg (by omega), if_neg (by omega), if_neg (by omega)]
    simp only [hp]
  intro r
  have hr : r = mulULL c x n := rfl
  rw [hdef] at hr
  generalize mulLoop c.L n (x.data.take p) = s at *
  have x0 := hx.absp_ge hxz (p := p) (by omega) hpN
  have x1 := hx.absp_le hpN
  have x2 := hx.lt_absp hpN
  have hl := lexpp_eq c p x
  have hlp := p10_pos (x.lexpp c p)
  have hn2 : (2 : ℚ) ≤ n := by exact_mod_cast h0
  have hmge := hx.mantp_ge hxz (p := p) (by omega) hpN
  have hxa : x.absp c p = x.mantp c p * 10 ^ x.lexpp c p := rfl
  -- exact product of the first limbs
  have hS : (x.absp c p) * n = ((x.mantp c p * n : ℕ) : ℚ) * 10 ^ x.lexpp c p := by rw [hxa]; push_cast; ring
  have hrel : |r.val c| - |x.val c| * n ≤ 2 * eta c p * (|x.val c| * n) ∧ |x.val c| * n - |r.val c| ≤ 2 * eta c p * (|x.val c| * n) →
      r.neg = x.neg → |r.val c - x.val c * n| ≤ 2 * eta c p * (|x.val c| * n) := by
    intro ⟨h1, h2⟩ h3
    have : r.val c - x.val c * n = (if x.neg then -1 else 1) * (|r.val c| - |x.val c| * n) := by
      rw [val_sgn c r, val_sgn c x, h3]; simp only [abs_mul, abs_abs]
      cases x.neg <;> simp <;> ring
    rw [this, abs_mul]
    have : |(if x.neg = true then (-1 : ℚ) else 1)| = 1 := by split <;> simp
    rw [this, one_mul, abs_le]
    constructor <;> linarith
  -- |x| n against the first limbs
  have hxn : |x.val c| * n ≤ x.absp c p * n + 10 ^ x.exp * eta c p * n := by
    have := mul_le_mul_of_nonneg_right x2.le (show (0 : ℚ) ≤ n by linarith)
    rw [hl] at this; linarith
  have hxn2 : x.absp c p * n ≤ |x.val c| * n := mul_le_mul_of_nonneg_right x1 (by linarith)
  have hxe : (10 : ℚ) ^ x.exp * eta c p * n ≤ eta c p * (|x.val c| * n) := by
    have h1 : (10 : ℚ) ^ x.exp ≤ |x.val c| := le_trans x0 x1
    have := mul_le_mul_of_nonneg_right h1 (show 0 ≤ eta c p * n by positivity)
    linarith
  rw [hp]
  by_cases hc : s.2 = 0
  · rw [if_neg (by simp [hc])] at hr
    rw [hc] at s4
    simp only [zero_mul, add_zero] at s4
    have hlen : r.data.length = c.N := by
      rw [hr]; show (s.1 ++ x.data.drop p).length = _
      rw [List.length_append, s1, List.length_drop, hx.len]; omega
    have hval : ValidLimbs c.B r.data := by
      rw [hr]; exact validLimbs_append.mpr ⟨s2, hx.valid.drop p⟩
    have htk : r.data.take p = s.1 := by
      rw [hr]; show (s.1 ++ x.data.drop p).take p = _
      rw [List.take_append_of_le_length (by omega), List.take_of_length_le (by omega)]
    have hmp : r.mantp c p = x.mantp c p * n := by unfold mantp; rw [htk]; exact s4
    have hre : r.exp = x.exp := by rw [hr]
    have hrl : r.lexpp c p = x.lexpp c p := by unfold lexpp; rw [hre]
    have hge : c.B ^ (p - 1) ≤ r.mantp c p := by
      rw [hmp]; exact le_trans hmge (Nat.le_mul_of_pos_right _ (by omega))
    have hd0 : r.data.headD 0 ≠ 0 := by
      intro h0'
      have h1 : limbsVal c.B s.1 < c.B ^ (p - 1) := by
        cases hs1 : s.1 with
        | nil => rw [hs1] at s1; simp at s1; omega
        | cons y ys =>
          have hy : y = 0 := by
            have : r.data.headD 0 = y := by rw [hr, hs1]; rfl
            rw [← this]; exact h0'
          rw [limbsVal_cons, hy, zero_mul, zero_add]
          rw [hs1] at s1 s2
          have := limbsVal_lt (validLimbs_cons.mp s2).2
          simp only [List.length_cons] at s1
          have : ys.length = p - 1 := by omega
          rw [← this]; assumption
      have : r.mantp c p = limbsVal c.B s.1 := by unfold mantp; rw [htk]
      omega
    have hnz : r.isZero = false := by
      show (r.data.headD 0 == 0) = false
      rw [beq_eq_false_iff_ne]; exact hd0
    have hrp : r.prec = p := by rw [hr]; exact hp
    have hrn : r.neg = x.neg := by rw [hr]
    refine ⟨⟨hlen, hval, by rw [hre]; exact hx.dvd, by omega, by omega, fun h => absurd h hd0⟩, hnz, hrn, hrp, hrel ?_ hrn⟩
    have w1 := abs_val_split hlen hpN
    have w2 := drop_lt hlen hval hpN
    rw [hrl] at w2
    have w3 : (0 : ℚ) ≤ limbsVal c.B (r.data.drop p) * 10 ^ r.lexp c := by positivity
    have hra : r.absp c p = x.absp c p * n := by rw [hS]; unfold absp; rw [hmp, hrl]
    have h4 : (10 : ℚ) ^ x.lexpp c p ≤ eta c p * (|x.val c| * n) := by
      rw [hl]
      have h5 := mul_le_mul_of_nonneg_left hn2 (show (0 : ℚ) ≤ 10 ^ x.exp * eta c p by positivity)
      have h6 : (0 : ℚ) ≤ 10 ^ x.exp * eta c p := by positivity
      linarith
    have h5 : 0 ≤ eta c p * (|x.val c| * n) := by positivity
    rw [w1, hra]
    constructor <;> linarith
  · rw [if_pos (by simpa using hc)] at hr
    have hcB : s.2 < c.B := by rcases s3 with h | h <;> omega
    have hlen : r.data.length = c.N := by
      rw [hr]; show (s.2 :: (s.1.take (p - 1) ++ x.data.drop p)).length = _
      rw [List.length_cons, List.length_append, List.length_take, s1, List.length_drop, hx.len]; omega
    have hval : ValidLimbs c.B r.data := by
      rw [hr]; exact validLimbs_cons.mpr ⟨hcB, validLimbs_append.mpr ⟨s2.take _, hx.valid.drop p⟩⟩
    have htk : r.data.take p = s.2 :: s.1.take (p - 1) := by
      rw [hr]; show (s.2 :: (s.1.take (p - 1) ++ x.data.drop p)).take p = _
      obtain ⟨k, rfl⟩ : ∃ k, p = k + 1 := ⟨p - 1, by omega⟩
      rw [List.take_succ_cons]
      simp only [Nat.add_sub_cancel]
      rw [List.take_append_of_le_length (by rw [List.length_take, s1]; omega), List.take_take, Nat.min_self]
    have hre : r.exp = x.exp + c.ed := by rw [hr]
    have hrl : r.lexpp c p = x.lexpp c p + (c.ed : ℤ) * ((1 : ℕ) : ℤ) := by unfold lexpp; rw [hre]; push_cast; ring
    have hd0 : r.data.headD 0 ≠ 0 := by rw [hr]; exact hc
    have hnz : r.isZero = false := by
      show (r.data.headD 0 == 0) = false
      rw [beq_eq_false_iff_ne]; exact hd0
    have hrp : r.prec = p := by rw [hr]; exact hp
    have hrn : r.neg = x.neg := by rw [hr]
    refine ⟨⟨hlen, hval, by rw [hre]; exact dvd_add hx.dvd (dvd_refl _), by omega, by omega, fun h => absurd h hd0⟩, hnz, hrn, hrp,
      hrel ?_ hrn⟩
    -- the first p limbs are the quotient by the radix
    have hmp : r.mantp c p = (x.mantp c p * n) / c.B ^ 1 := by
      unfold mantp at s4 ⊢
      rw [htk, limbsVal_cons, List.length_take, s1, ← s4, pow_one]
      have hmin : min (p - 1) p = p - 1 := by omega
      rw [hmin]
      have h1 := limbsVal_take_drop (B := c.B) (l := s.1) (p - 1)
      rw [s1, show p - (p - 1) = 1 by omega, pow_one] at h1
      have h2 : limbsVal c.B (s.1.drop (p - 1)) < c.B ^ (s.1.drop (p - 1)).length := limbsVal_lt (s2.drop (p - 1))
      rw [List.length_drop, s1, show p - (p - 1) = 1 by omega, pow_one] at h2
      have h3 : c.B ^ p = c.B ^ (p - 1) * c.B := by rw [← pow_succ]; congr 1; omega
      rw [h3, h1]
      rw [show limbsVal c.B (s.1.take (p - 1)) * c.B + limbsVal c.B (s.1.drop (p - 1)) + s.2 * (c.B ^ (p - 1) * c.B) =
        limbsVal c.B (s.1.drop (p - 1)) + c.B * (s.2 * c.B ^ (p - 1) + limbsVal c.B (s.1.take (p - 1))) by ring]
      rw [Nat.add_mul_div_left _ _ hB, Nat.div_eq_of_lt h2]; omega
    obtain ⟨f1, f2⟩ := shift_frac c (x.mantp c p * n) 1 _ _ hrl
    rw [← hmp, ← hS] at f1 f2
    have hra : r.absp c p = (r.mantp c p : ℚ) * 10 ^ r.lexpp c p := rfl
    rw [← hra] at f1 f2
    have w1 := abs_val_split hlen hpN
    have w2 := drop_lt hlen hval hpN
    have w3 : (0 : ℚ) ≤ limbsVal c.B (r.data.drop p) * 10 ^ r.lexp c := by positivity
    have h4 : (10 : ℚ) ^ r.lexpp c p ≤ eta c p * (|x.val c| * n) := by
      have hw : WF c r := ⟨hlen, hval, by rw [hre]; exact dvd_add hx.dvd (dvd_refl _), by omega, by omega, fun h => absurd h hd0⟩
      have h5 := hw.absp_ge hnz (p := p) (by omega) hpN
      have h6 : (10 : ℚ) ^ r.exp ≤ |x.val c| * n := by linarith
      rw [lexpp_eq]
      have := mul_le_mul_of_nonneg_left h6 hη.le
      linarith
    rw [w1]
    constructor <;> linarith

/-- A zero operand, in the sense of the code, gives a zero. -/
theorem mul_isZero {c : Cfg} {x y : DW} (hx : WF c x) (hy : Pre c y) (hz : y.isZero = true) (hye : y.exp = 0)
    (hok : MulOkAll c) (hE : 0 < c.maxExp) : (mulAssign c x y).isZero = true := by
  have hz0 : (zero c).isZero = true := (zero_WF c).toWF.isZero_iff.mpr (zero_val c)
  have h1 : isOneSN c { zero c with neg := false } = false := isOneSN_zero c _ hz0
  have h2 : isOneSN c y = false := isOneSN_zero c _ hz
  have h3 := c.three_le_N
  unfold mulAssign
  simp only [hz, or_true, if_true, h1, h2, Bool.false_eq_true, if_false]
  have he : (zero c).exp = 0 := rfl
  rw [if_neg (by rw [he]; omega), if_neg (by rw [he]; omega)]
  have hp : min (zero c).prec y.prec = y.prec := by rw [(zero_WF c).full]; have := hy.precN; omega
  rw [hp]
  have hu : WF c { zero c with neg := false, exp := (zero c).exp + y.exp } :=
    ⟨(zero_WF c).len, (zero_WF c).valid, by rw [he, zero_add]; exact hy.dvd, (zero_WF c).prec2, (zero_WF c).precN, (zero_WF c).lead⟩
  obtain ⟨q1, q2, q3, q4⟩ := mulDispatch_zero hu hy.len hy.valid ((zero_WF c).lead (by simpa [isZero] using hz0)) hy.precN
    (hok.ok (by have := hy.prec2; omega) hy.precN)
  show (DW.d0 (mulDispatch c y.prec { zero c with neg := false, exp := (zero c).exp + y.exp } y) == 0) = true
  rw [beq_iff_eq]
  unfold d0
  cases hh : (mulDispatch c y.prec { zero c with neg := false, exp := (zero c).exp + y.exp } y).data with
  | nil => rfl
  | cons a as => exact q1 a (by rw [hh]; exact List.mem_cons_self ..)

end WD
