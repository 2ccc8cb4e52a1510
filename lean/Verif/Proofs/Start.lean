import Verif.Proofs.Float
import Verif.Spec.FloatOk
import Verif.Proofs.Inv
import Verif.Props.Tables
/-
  The start value of the reciprocal iteration, computed in floating point, is good enough.
-/
namespace WD
open DW

/-- `m` is `S` up to `a` roundings. -/
def NearF (u : ℚ) (a : ℕ) (S m : ℚ) : Prop := (1 - u) ^ a * S ≤ m ∧ m ≤ (1 + u) ^ a * S

section near
variable {u : ℚ} (hu0 : 0 < u) (hu1 : u < 1)
include hu0 hu1

theorem NearF.mono {a b : ℕ} (h : a ≤ b) {S m : ℚ} (hS : 0 ≤ S) (hm : NearF u a S m) : NearF u b S m := by
  refine ⟨le_trans (mul_le_mul_of_nonneg_right ?_ hS) hm.1, le_trans hm.2 (mul_le_mul_of_nonneg_right ?_ hS)⟩
  · exact pow_le_pow_of_le_one (by linarith) (by linarith) h
  · exact pow_le_pow_right₀ (by linarith) h

theorem NearF.nonneg {a : ℕ} {S m : ℚ} (hS : 0 ≤ S) (hm : NearF u a S m) : 0 ≤ m :=
  le_trans (mul_nonneg (pow_nonneg (by linarith) a) hS) hm.1

theorem NearF.pos {a : ℕ} {S m : ℚ} (hS : 0 < S) (hm : NearF u a S m) : 0 < m :=
  lt_of_lt_of_le (mul_pos (pow_pos (by linarith) a) hS) hm.1

theorem NearF.mul {a b : ℕ} {S T m n : ℚ} (hS : 0 ≤ S) (hT : 0 ≤ T) (hm : NearF u a S m) (hn : NearF u b T n) :
    NearF u (a + b) (S * T) (m * n) := by
  have h1 := hm.nonneg hu0 hu1 hS
  have h2 := hn.nonneg hu0 hu1 hT
  have p1 : 0 ≤ (1 - u) ^ a * S := mul_nonneg (pow_nonneg (by linarith) a) hS
  have p2 : 0 ≤ (1 - u) ^ b * T := mul_nonneg (pow_nonneg (by linarith) b) hT
  constructor
  · calc (1 - u) ^ (a + b) * (S * T) = (1 - u) ^ a * S * ((1 - u) ^ b * T) := by rw [pow_add]; ring
      _ ≤ m * n := mul_le_mul hm.1 hn.1 p2 h1
  · calc m * n ≤ (1 + u) ^ a * S * ((1 + u) ^ b * T) := mul_le_mul hm.2 hn.2 h2 (le_trans h1 hm.2)
      _ = _ := by rw [pow_add]; ring

theorem NearF.const {a : ℕ} {S m k : ℚ} (hk : 0 ≤ k) (hm : NearF u a S m) : NearF u a (S * k) (m * k) :=
  ⟨by rw [← mul_assoc]; exact mul_le_mul_of_nonneg_right hm.1 hk, by rw [← mul_assoc]; exact mul_le_mul_of_nonneg_right hm.2 hk⟩

theorem NearF.add {a : ℕ} {S T m n : ℚ} (hm : NearF u a S m) (hn : NearF u a T n) : NearF u a (S + T) (m + n) :=
  ⟨by rw [mul_add]; exact add_le_add hm.1 hn.1, by rw [mul_add]; exact add_le_add hm.2 hn.2⟩

theorem near_refl {S : ℚ} : NearF u 0 S S := by constructor <;> simp
end near

namespace Flt
variable (F : Flt)

theorem u_lt (hp : 1 ≤ F.p) : F.u < 1 := by
  unfold u
  calc (2 : ℚ) ^ (-(F.p : ℤ)) < 2 ^ (0 : ℤ) := zpow_lt_zpow_right₀ (by norm_num) (by omega)
    _ = 1 := by norm_num

theorem near_rnd (hp : 1 ≤ F.p) {a : ℕ} {S m : ℚ} (hS : 0 ≤ S) (hm : NearF F.u a S m) : NearF F.u (a + 1) S (F.rnd m) := by
  have hu0 := F.u_pos
  have hu1 := F.u_lt hp
  have hm0 := hm.nonneg hu0 hu1 hS
  have h := F.rnd_err hp m
  rw [abs_of_nonneg hm0] at h
  obtain ⟨h1, h2⟩ := abs_le.mp h
  constructor
  · calc (1 - F.u) ^ (a + 1) * S = (1 - F.u) ^ a * S * (1 - F.u) := by rw [pow_succ]; ring
      _ ≤ m * (1 - F.u) := mul_le_mul_of_nonneg_right hm.1 (by linarith)
      _ ≤ _ := by linarith
  · calc F.rnd m ≤ m * (1 + F.u) := by linarith
      _ ≤ (1 + F.u) ^ a * S * (1 + F.u) := mul_le_mul_of_nonneg_right hm.2 (by linarith)
      _ = _ := by rw [pow_succ]; ring

theorem rep_nat {n : ℕ} (h : n ≤ 2 ^ F.p) : RepF F.p n := ⟨n, 0, by rw [abs_of_nonneg (by positivity)]; exact_mod_cast h, by simp⟩

theorem rep_pow10 (hp : 24 ≤ F.p) {i : ℕ} (hi : i ≤ 8) : RepF F.p (10 ^ i) := by
  refine ⟨5 ^ i, i, ?_, ?_⟩
  · rw [abs_of_nonneg (by positivity)]
    calc (5 : ℤ) ^ i ≤ 5 ^ 8 := pow_le_pow_right₀ (by norm_num) hi
      _ ≤ 2 ^ 24 := by norm_num
      _ ≤ 2 ^ F.p := pow_le_pow_right₀ (by norm_num) hp
  · push_cast
    rw [zpow_natCast, ← mul_pow]; norm_num

/-- The fractional part of a representable number is representable. -/
theorem rep_frac {d : ℚ} (h : RepF F.p d) (h0 : 0 ≤ d) : RepF F.p (d - (⌊d⌋₊ : ℕ)) := by
  obtain ⟨m, k, hm, hd⟩ := h
  rcases le_or_gt 0 k with hk | hk
  · obtain ⟨j, rfl⟩ := Int.eq_ofNat_of_zero_le hk
    have hint : d = ((m * 2 ^ j : ℤ) : ℚ) := by rw [hd, zpow_natCast]; push_cast; rfl
    have h0' : 0 ≤ m * 2 ^ j := by rw [hint] at h0; exact_mod_cast h0
    obtain ⟨n, hn⟩ := Int.eq_ofNat_of_zero_le h0'
    have : d = (n : ℚ) := by rw [hint, hn]; simp
    rw [this, Nat.floor_natCast, sub_self]
    exact ⟨0, 0, by simp, by simp⟩
  · obtain ⟨j, hj⟩ := Int.eq_ofNat_of_zero_le (show 0 ≤ -k by omega)
    have hkj : k = -(j : ℤ) := by omega
    have h2 : (2 : ℚ) ^ j * 2 ^ k = 1 := by
      rw [hkj, zpow_neg, zpow_natCast]
      exact mul_inv_cancel₀ (by positivity)
    refine ⟨m - (⌊d⌋₊ : ℕ) * 2 ^ j, k, ?_, ?_⟩
    · have hm0 : 0 ≤ m := by
        by_contra hc
        push_neg at hc
        have : (m : ℚ) < 0 := by exact_mod_cast hc
        have := mul_neg_of_neg_of_pos this (p2_pos k)
        rw [← hd] at this
        linarith
      have hle : ((⌊d⌋₊ : ℕ) : ℚ) ≤ d := Nat.floor_le h0
      have hle2 : ((⌊d⌋₊ : ℕ) : ℚ) * 2 ^ j ≤ m := by
        have := mul_le_mul_of_nonneg_right hle (show (0 : ℚ) ≤ 2 ^ j by positivity)
        rw [hd] at this ⊢
        calc _ ≤ (m : ℚ) * 2 ^ k * 2 ^ j := this
          _ = m * (2 ^ j * 2 ^ k) := by ring
          _ = m := by rw [h2, mul_one]
      have hle3 : ((⌊d⌋₊ : ℕ) : ℤ) * 2 ^ j ≤ m := by exact_mod_cast hle2
      have h0' : (0 : ℤ) ≤ ((⌊d⌋₊ : ℕ) : ℤ) * 2 ^ j := by positivity
      rw [abs_of_nonneg (by linarith)]
      rw [abs_of_nonneg hm0] at hm
      linarith
    · push_cast
      rw [sub_mul, ← hd, mul_assoc, h2, mul_one]
end Flt

variable {c : Cfg} {F : Flt}

/-! ### Floating-point parts -/

theorem partsLoop_near (hp : 1 ≤ F.p) : ∀ (ls : List ℕ) (m s S σ : ℚ) (a b : ℕ), 0 ≤ S → 0 ≤ σ → b + 2 ≤ a → NearF F.u a S m →
    NearF F.u b σ s → NearF F.u (a + ls.length) (S + σ * ((limbsVal c.B ls : ℚ) * c.B / c.B ^ ls.length)) (partsLoop c F ls m s)
  | [], m, s, S, σ, a, b, hS, hσ, hab, hm, hs => by simpa [partsLoop, limbsVal] using hm
  | l :: ls, m, s, S, σ, a, b, hS, hσ, hab, hm, hs => by
    have hu0 := F.u_pos
    have hu1 := F.u_lt hp
    have hB : (0 : ℚ) < c.B := by exact_mod_cast c.B_pos
    have hl : NearF F.u 1 (l : ℚ) (F.rnd l) := F.near_rnd hp (by positivity) (near_refl hu0 hu1)
    have ht : NearF F.u (1 + b + 1) (l * σ) (F.rnd (F.rnd l * s)) :=
      F.near_rnd hp (by positivity) (hl.mul hu0 hu1 (by positivity) hσ hs)
    have hsum : NearF F.u (a + 1) (S + l * σ) (F.rnd (m + F.rnd (F.rnd l * s))) :=
      F.near_rnd hp (by positivity) (hm.add hu0 hu1 (ht.mono hu0 hu1 (by omega) (by positivity)))
    have hsc : NearF F.u (b + 1) (σ / c.B) (F.rnd (s / c.B)) := by
      refine F.near_rnd hp (by positivity) ?_
      have := hs.const hu0 hu1 (k := 1 / c.B) (by positivity)
      simpa [div_eq_mul_inv] using this
    have := partsLoop_near hp ls _ _ _ _ (a + 1) (b + 1) (by positivity) (by positivity) (by omega) hsum hsc
    rw [partsLoop, List.length_cons, show a + (ls.length + 1) = a + 1 + ls.length by omega]
    have e : S + σ * ((limbsVal c.B (l :: ls) : ℚ) * c.B / c.B ^ (ls.length + 1)) =
        S + l * σ + σ / c.B * ((limbsVal c.B ls : ℚ) * c.B / c.B ^ ls.length) := by
      rw [limbsVal_cons, pow_succ]
      push_cast
      field_simp
      ring
    rw [e]
    exact this

theorem orderP10_limb {d : ℕ} (h : d < c.B) : orderP10 c.L.bits d = 10 ^ orderOf d ∧ orderOf d ≤ c.ed := by
  have hle : orderOf d ≤ c.ed := by
    rcases Nat.eq_zero_or_pos d with h0 | h0
    · subst h0
      have : orderOf 0 = 1 := by rw [orderOf]; simp
      rw [this]; exact c.ed_pos
    · obtain ⟨-, h2, h3⟩ := orderOf_digits d
      have h4 : 10 ^ (orderOf d - 1) < 10 ^ c.ed := lt_of_le_of_lt (h2 h0) (by rw [← c.B_eq]; exact h)
      have := (Nat.pow_lt_pow_iff_right (by norm_num)).mp h4
      omega
  refine ⟨?_, hle⟩
  unfold orderP10
  apply Nat.mod_eq_of_lt
  calc 10 ^ orderOf d ≤ 10 ^ c.ed := Nat.pow_le_pow_right (by norm_num) hle
    _ < 2 ^ c.L.bits := by unfold Cfg.ed; cases c.L <;> decide

/-- `extract_parts` against the first `K` limbs. -/
theorem extractParts_near (hp : 1 ≤ F.p) {x : DW} (hx : Posi c x) (hK1 : 1 ≤ digitLoops c F) (hK : digitLoops c F ≤ c.N) :
    (extractParts c F x).2 = (orderOf x.d0 : ℤ) + x.exp ∧
    NearF F.u (digitLoops c F + 3) (x.absp c (digitLoops c F) / 10 ^ ((orderOf x.d0 : ℤ) + x.exp)) (extractParts c F x).1 := by
  have hu0 := F.u_pos
  have hu1 := F.u_lt hp
  have hB : (0 : ℚ) < c.B := by exact_mod_cast c.B_pos
  refine ⟨rfl, ?_⟩
  unfold extractParts
  simp only [hx.nn, Bool.false_eq_true, if_false]
  have hmin : min x.data.length (digitLoops c F) = digitLoops c F := by rw [hx.len]; omega
  rw [hmin]
  have hd0 : x.d0 < c.B := by
    have h3 := c.three_le_N
    unfold d0
    cases hd : x.data with
    | nil => exact c.B_pos
    | cons y ys => exact hx.valid y (by rw [hd]; simp)
  rw [(orderP10_limb hd0).1]
  generalize digitLoops c F = K at *
  set o := orderOf x.d0
  have hs : NearF F.u 1 (1 / ((10 ^ o : ℕ) : ℚ)) (F.rnd (1 / ((10 ^ o : ℕ) : ℚ))) :=
    F.near_rnd hp (by positivity) (near_refl hu0 hu1)
  have h0 : NearF F.u 3 0 0 := by constructor <;> simp
  have hlen : (x.data.take K).length = K := take_length' hx.len hK
  have := partsLoop_near (c := c) hp (x.data.take K) _ _ _ _ 3 1 (le_refl 0) (by positivity) (by norm_num) h0 hs
  rw [hlen, zero_add, Nat.add_comm 3 K] at this
  have e : 1 / ((10 ^ o : ℕ) : ℚ) * ((limbsVal c.B (x.data.take K) : ℚ) * c.B / c.B ^ K) =
      x.absp c K / 10 ^ ((o : ℤ) + x.exp) := by
    unfold absp mantp lexpp
    obtain ⟨j, rfl⟩ : ∃ j, K = j + 1 := ⟨K - 1, by omega⟩
    have h1 := c.p10_mul_B (-((c.ed : ℤ) * j)) j
    rw [neg_add_cancel, zpow_zero] at h1
    have h2 : (10 : ℚ) ^ (-((c.ed : ℤ) * j)) = 1 / c.B ^ j := by field_simp; exact h1
    rw [show x.exp - (c.ed : ℤ) * (((j + 1 : ℕ) : ℤ) - 1) = x.exp + -((c.ed : ℤ) * j) by push_cast; ring,
      zpow_add₀ (by norm_num) (o : ℤ), zpow_add₀ (by norm_num) x.exp, h2, zpow_natCast, pow_succ]
    have h3 := (p10_pos x.exp).ne'
    push_cast
    field_simp
  rw [e] at this
  exact this

/-! ### The constructor from mantissa and exponent -/

/-- `s` multiplications by ten. -/
def timesTen (F : Flt) : ℕ → ℚ → ℚ
  | 0, d => d
  | s + 1, d => timesTen F s (F.rnd (d * 10))

theorem shiftLoop_eq : ∀ (n s : ℕ) (d : ℚ) (e shift : ℤ), s ≤ n → shift % c.ed = s → (n = s → shift % c.ed = s) →
    shiftLoop c F n (d, e) shift = (timesTen F s d, e - s)
  | 0, s, d, e, shift, hs, _, _ => by
    have : s = 0 := by omega
    subst this
    simp [shiftLoop, timesTen]
  | n + 1, s, d, e, shift, hs, hm, _ => by
    have hed : (0 : ℤ) < c.ed := by exact_mod_cast c.ed_pos
    have hz : shift.tmod c.ed = 0 ↔ shift % c.ed = 0 := by
      rw [← Int.dvd_iff_tmod_eq_zero, Int.dvd_iff_emod_eq_zero]
    rw [shiftLoop]
    cases s with
    | zero =>
      rw [if_neg (by rw [not_not, hz]; exact_mod_cast hm)]
      simp [timesTen]
    | succ s =>
      rw [if_pos (by rw [Ne, hz, hm]; omega)]
      have hlt := Int.emod_lt_of_pos shift hed
      have hm' : (shift - 1) % c.ed = s := by
        have h1 := Int.emod_add_mul_ediv shift c.ed
        rw [hm] at h1
        have h2 : shift - 1 = (s : ℤ) + c.ed * (shift / c.ed) := by push_cast at h1; linarith
        rw [h2, Int.add_mul_emod_self_left]
        exact Int.emod_eq_of_lt (by omega) (by rw [hm] at hlt; push_cast at hlt; omega)
      rw [shiftLoop_eq n s _ _ _ (by omega) hm' (fun _ => hm')]
      simp only [timesTen, Prod.mk.injEq, true_and]
      push_cast; ring

theorem timesTen_spec (hp : 24 ≤ F.p) : ∀ (s j : ℕ) (d : ℚ), s + j ≤ 7 → RepF F.p d → 10 ^ j ≤ d →
    RepF F.p (timesTen F s d) ∧ 10 ^ (s + j) ≤ timesTen F s d ∧ (d < 10 ^ (j + 1) → timesTen F s d < 10 ^ (s + j + 1)) ∧
    (∀ a S, 0 ≤ S → NearF F.u a S d → NearF F.u (a + s) (S * 10 ^ s) (timesTen F s d))
  | 0, j, d, hs, hr, hd => by
    refine ⟨hr, by simpa [timesTen] using hd, fun h => by simpa [timesTen] using h, fun a S hS h => by simpa [timesTen] using h⟩
  | s + 1, j, d, hs, hr, hd => by
    have hp1 : 1 ≤ F.p := by omega
    have hge : (10 : ℚ) ^ (j + 1) ≤ F.rnd (d * 10) := by
      have h1 : (10 : ℚ) ^ (j + 1) ≤ d * 10 := by rw [pow_succ]; linarith
      have := F.rnd_mono h1
      rwa [F.rnd_eq (F.rep_pow10 hp (by omega))] at this
    obtain ⟨q1, q2, q3, q4⟩ := timesTen_spec hp s (j + 1) (F.rnd (d * 10)) (by omega) (F.rep _) hge
    rw [timesTen]
    refine ⟨q1, by rw [show s + 1 + j = s + (j + 1) by omega]; exact q2, fun h => ?_, fun a S hS h => ?_⟩
    · rw [show s + 1 + j + 1 = s + (j + 1) + 1 by omega]
      apply q3
      have hd0 : 0 ≤ d := le_trans (by positivity) hd
      apply F.rnd_lt hp1 (by linarith) (by positivity)
      have := F.gap hp1 hr (F.rep_pow10 hp (i := j + 1) (by omega)) (by positivity) h
      rw [pow_succ _ (j + 1)]
      linarith
    · have := q4 (a + 1) (S * 10) (by positivity) (F.near_rnd hp1 (by positivity) (h.const F.u_pos (F.u_lt hp1) (by norm_num)))
      rw [show a + (s + 1) = a + 1 + s by omega, pow_succ, mul_comm (10 ^ s) 10, ← mul_assoc]
      exact this

/-- The digit loop: valid limbs whose value approximates the input. -/
theorem mantLoop_spec (hp : 24 ≤ F.p) : ∀ (K : ℕ) (d : ℚ), RepF F.p d → 0 ≤ d → d < c.B →
    (mantLoop c F (K + 1) d).length = K + 1 ∧ ValidLimbs c.B (mantLoop c F (K + 1) d) ∧
    (mantLoop c F (K + 1) d).headD 0 = ⌊d⌋₊ ∧
    |(limbsVal c.B (mantLoop c F (K + 1) d) : ℚ) / c.B ^ K - d| ≤ 2 * F.u + 1 / c.B ^ K
  | K, d, hr, h0, hB => by
    have hp1 : 1 ≤ F.p := by omega
    have hu0 := F.u_pos
    have hfl : ⌊d⌋₊ < c.B := by rw [Nat.floor_lt h0]; exact hB
    have hW : ⌊d⌋₊ % c.L.W = ⌊d⌋₊ := Nat.mod_eq_of_lt (lt_of_lt_of_le hfl (by unfold Cfg.B; cases c.L <;> decide))
    have hfr0 : 0 ≤ d - (⌊d⌋₊ : ℕ) := by linarith [Nat.floor_le h0]
    have hfr1 : d - (⌊d⌋₊ : ℕ) < 1 := by linarith [Nat.lt_floor_add_one d]
    cases K with
    | zero =>
      have e : mantLoop c F 1 d = [⌊d⌋₊] := by simp [mantLoop, hW]
      rw [e]
      refine ⟨rfl, fun y hy => ?_, rfl, ?_⟩
      · simp at hy; rw [hy]; exact hfl
      · simp only [limbsVal, List.length_nil, pow_zero, mul_one, add_zero, div_one]
        rw [abs_le]; constructor <;> linarith
    | succ K =>
      have hBp : (0 : ℚ) < c.B := by exact_mod_cast c.B_pos
      have hB2 : (2 : ℚ) ≤ c.B := by exact_mod_cast c.one_lt_B
      have hfr := F.rep_frac hr h0
      have e : mantLoop c F (K + 1 + 1) d = ⌊d⌋₊ :: mantLoop c F (K + 1) (F.rnd ((d - (⌊d⌋₊ : ℕ)) * c.B)) := by
        rw [mantLoop]
        simp only [hW, F.rnd_eq hfr]
      set r := d - (⌊d⌋₊ : ℕ) with hrdef
      have hone : RepF F.p 1 := by simpa using F.rep_pow10 hp (i := 0) (by norm_num)
      have hgap := F.gap hp1 hfr hone (by norm_num) hfr1
      have hn0 : 0 ≤ F.rnd (r * c.B) := F.rnd_nonneg (by positivity)
      have hnB : F.rnd (r * c.B) < c.B := F.rnd_lt hp1 (by positivity) hBp (by nlinarith)
      obtain ⟨q1, q2, q3, q4⟩ := mantLoop_spec hp K (F.rnd (r * c.B)) (F.rep _) hn0 hnB
      rw [e]
      refine ⟨by simp [q1], ?_, rfl, ?_⟩
      · rw [validLimbs_cons]; exact ⟨hfl, q2⟩
      · rw [limbsVal_cons, q1]
        have herr := F.rnd_err hp1 (r * c.B)
        rw [abs_of_nonneg (by positivity : 0 ≤ r * c.B)] at herr
        generalize limbsVal c.B (mantLoop c F (K + 1) (F.rnd (r * c.B))) = V at q4 ⊢
        generalize F.rnd (r * c.B) = R at q4 herr ⊢
        have hsplit : ((⌊d⌋₊ * c.B ^ (K + 1) + V : ℕ) : ℚ) / c.B ^ (K + 1) - d =
            (((V : ℚ) / c.B ^ K - R) + (R - r * c.B)) / c.B := by
          have hd : d = ⌊d⌋₊ + r := by rw [hrdef]; ring
          rw [show ∀ z : ℚ, z - d = z - (⌊d⌋₊ + r) from fun z => by rw [← hd]]
          push_cast
          rw [pow_succ]
          field_simp
          ring
        rw [hsplit, abs_div, abs_of_pos hBp, div_le_iff₀ hBp]
        refine le_trans (abs_add_le _ _) ?_
        rw [abs_sub_comm R]
        have h1 : r * c.B * F.u ≤ c.B * F.u := by
          have : r * c.B ≤ 1 * c.B := mul_le_mul_of_nonneg_right hfr1.le hBp.le
          rw [one_mul] at this
          exact mul_le_mul_of_nonneg_right this hu0.le
        have h2 : 1 / (c.B : ℚ) ^ (K + 1) * c.B = 1 / c.B ^ K := by rw [pow_succ]; field_simp
        have h3 : 2 * F.u ≤ c.B * F.u := mul_le_mul_of_nonneg_right hB2 hu0.le
        rw [add_mul, h2]
        linarith

end WD
