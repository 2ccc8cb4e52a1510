import Verif.Model.PiControl
import Verif.Props.Const
/-
  C73: the control digits of π are digits of π.
-/
namespace WD

/-- The sum of 2^d pairs of terms of the series of arctan (1/q), from pair j on, times q^(4j+1): numerator and denominator. Written
    with `Nat.rec` and the primitive operations, so that the kernel evaluates it quickly. -/
noncomputable def atanTree (q d : ℕ) : ℕ → ℕ × ℕ :=
  Nat.rec (fun j => (Nat.sub (Nat.mul (Nat.mul q q) (Nat.add (Nat.mul 4 j) 3)) (Nat.add (Nat.mul 4 j) 1),
      Nat.mul (Nat.mul (Nat.mul q q) (Nat.add (Nat.mul 4 j) 1)) (Nat.add (Nat.mul 4 j) 3)))
    (fun d ih j => Prod.rec (fun l1 l2 => Prod.rec (fun r1 r2 =>
      (Nat.add (Nat.mul (Nat.mul l1 r2) (Nat.pow q (Nat.mul 4 (Nat.pow 2 d)))) (Nat.mul r1 l2),
        Nat.mul (Nat.mul l2 r2) (Nat.pow q (Nat.mul 4 (Nat.pow 2 d))))) (ih (Nat.add j (Nat.pow 2 d)))) (ih j)) d

theorem atanTree_zero (q j : ℕ) : atanTree q 0 j = (q * q * (4 * j + 3) - (4 * j + 1), q * q * (4 * j + 1) * (4 * j + 3)) := rfl
theorem atanTree_succ (q d j : ℕ) : atanTree q (d + 1) j =
    ((atanTree q d j).1 * (atanTree q d (j + 2 ^ d)).2 * q ^ (4 * 2 ^ d) + (atanTree q d (j + 2 ^ d)).1 * (atanTree q d j).2,
      (atanTree q d j).2 * (atanTree q d (j + 2 ^ d)).2 * q ^ (4 * 2 ^ d)) := rfl

theorem atanTree_spec {q : ℕ} (hq : 2 ≤ q) (d : ℕ) : ∀ j, 0 < (atanTree q d j).2 ∧
    ((atanTree q d j).1 : ℚ) / (atanTree q d j).2 / (q : ℚ) ^ (4 * j + 1) = atanSum q (2 * (j + 2 ^ d)) - atanSum q (2 * j) := by
  have hq0 : (0 : ℚ) < q := by have : 0 < q := by omega
                               exact_mod_cast this
  induction d with
  | zero =>
    intro j
    rw [atanTree_zero]
    refine ⟨by positivity, ?_⟩
    have hle : 4 * j + 1 ≤ q * q * (4 * j + 3) := by
      have : 1 * (4 * j + 3) ≤ q * q * (4 * j + 3) := Nat.mul_le_mul_right _ (Nat.mul_pos (by omega) (by omega))
      omega
    have e : 2 * (j + 2 ^ 0) = 2 * j + 1 + 1 := by norm_num; ring
    rw [e]
    simp only [atanSum]
    push_cast [Nat.cast_sub hle]
    have e1 : (-1 : ℚ) ^ (2 * j) = 1 := by rw [pow_mul]; norm_num
    have e2 : (-1 : ℚ) ^ (2 * j + 1) = -1 := by rw [pow_succ, e1]; norm_num
    rw [e1, e2]
    have e3 : (q : ℚ) ^ (2 * (2 * j) + 1) = q ^ (4 * j + 1) := by congr 1; ring
    have e4 : (q : ℚ) ^ (2 * (2 * j + 1) + 1) = q ^ (4 * j + 1) * q ^ 2 := by rw [← pow_add]; congr 1; ring
    rw [e3, e4]
    have hp : (0 : ℚ) < q ^ (4 * j + 1) := by positivity
    generalize (q : ℚ) ^ (4 * j + 1) = P at *
    have h1 : (0 : ℚ) < 4 * j + 1 := by positivity
    have h3 : (0 : ℚ) < 4 * j + 3 := by positivity
    have h1' : (2 * (2 * (j : ℚ)) + 1) = 4 * j + 1 := by ring
    have h3' : (2 * (2 * (j : ℚ) + 1) + 1) = 4 * j + 3 := by ring
    rw [h1', h3']
    field_simp
    ring
  | succ d ih =>
    intro j
    obtain ⟨a1, a2⟩ := ih j
    obtain ⟨b1, b2⟩ := ih (j + 2 ^ d)
    rw [atanTree_succ]
    generalize atanTree q d j = l at *
    generalize atanTree q d (j + 2 ^ d) = r at *
    have hqp : 0 < q ^ (4 * 2 ^ d) := Nat.pow_pos (by omega)
    refine ⟨by positivity, ?_⟩
    have e1 : j + 2 ^ d + 2 ^ d = j + 2 ^ (d + 1) := by rw [pow_succ]; ring
    have e2 : (q : ℚ) ^ (4 * (j + 2 ^ d) + 1) = q ^ (4 * j + 1) * q ^ (4 * 2 ^ d) := by rw [← pow_add]; congr 1; ring
    rw [e1, e2] at b2
    have e3 : atanSum q (2 * (j + 2 ^ (d + 1))) - atanSum q (2 * j) = (atanSum q (2 * (j + 2 ^ (d + 1))) - atanSum q (2 * (j + 2 ^ d))) +
        (atanSum q (2 * (j + 2 ^ d)) - atanSum q (2 * j)) := by ring
    rw [e3, ← a2, ← b2]
    push_cast
    have hP : (0 : ℚ) < q ^ (4 * j + 1) := by positivity
    have hQ : (0 : ℚ) < (q : ℚ) ^ (4 * 2 ^ d) := by positivity
    have hl : (0 : ℚ) < l.2 := by exact_mod_cast a1
    have hr : (0 : ℚ) < r.2 := by exact_mod_cast b1
    generalize (q : ℚ) ^ (4 * j + 1) = P at *
    generalize (q : ℚ) ^ (4 * 2 ^ d) = Q at *
    field_simp
    ring

/-- 16·(2^(a+1) terms for arctan 1/5) - 4·(2^(b+1) terms for arctan 1/239), times 10^D, rounded down. -/
noncomputable def piScaled (a b D : ℕ) : ℕ :=
  (16 * ((atanTree 5 a 0).1 * 239) * (atanTree 239 b 0).2 - 4 * ((atanTree 239 b 0).1 * 5) * (atanTree 5 a 0).2) * 10 ^ D /
    (5 * 239 * (atanTree 5 a 0).2 * (atanTree 239 b 0).2)

theorem piScaled_spec {a b D : ℕ} (h0 : 0 < piScaled a b D) (h1 : 10 ^ D ≤ 5 ^ (4 * 2 ^ a)) (h2 : 10 ^ D ≤ 239 ^ (4 * 2 ^ b)) :
    ((piScaled a b D : ℝ) - 1) ≤ Real.pi * 10 ^ D ∧ Real.pi * 10 ^ D < (piScaled a b D : ℝ) + 5 := by
  obtain ⟨s0, s⟩ := atanTree_spec (q := 5) (by norm_num) a 0
  obtain ⟨t0, t⟩ := atanTree_spec (q := 239) (by norm_num) b 0
  obtain ⟨a1, a2⟩ := atan_bounds (q := 5) (by norm_num) (2 ^ a)
  obtain ⟨b1, b2⟩ := atan_bounds (q := 239) (by norm_num) (2 ^ b)
  have hm := Real.four_mul_arctan_inv_5_sub_arctan_inv_239
  have s' : atanSum 5 (2 * 2 ^ a) = ((atanTree 5 a 0).1 : ℚ) / (atanTree 5 a 0).2 / 5 := by
    rw [zero_add] at s
    have : atanSum 5 (2 * 0) = 0 := rfl
    rw [this, sub_zero] at s
    rw [← s]; norm_num
  have t' : atanSum 239 (2 * 2 ^ b) = ((atanTree 239 b 0).1 : ℚ) / (atanTree 239 b 0).2 / 239 := by
    rw [zero_add] at t
    have : atanSum 239 (2 * 0) = 0 := rfl
    rw [this, sub_zero] at t
    rw [← t]; norm_num
  have tailS : ∀ q n : ℕ, 2 ≤ q → 10 ^ D ≤ q ^ (4 * 2 ^ n) → atanSum q (2 * 2 ^ n + 1) ≤ atanSum q (2 * 2 ^ n) + 1 / 5 / 10 ^ D * (5 / q) := by
    intro q n hq h
    have hq0 : (0 : ℚ) < q := by have : 0 < q := by omega
                                 exact_mod_cast this
    simp only [atanSum]
    have e1 : (-1 : ℚ) ^ (2 * 2 ^ n) = 1 := by rw [pow_mul]; norm_num
    rw [e1]
    have e4 : (q : ℚ) ^ (2 * (2 * 2 ^ n) + 1) = q ^ (4 * 2 ^ n) * q := by rw [← pow_succ]; congr 1; ring
    rw [e4]
    have hD : (10 : ℚ) ^ D ≤ q ^ (4 * 2 ^ n) := by exact_mod_cast h
    have hone : (1 : ℚ) ≤ 2 * ((2 * 2 ^ n : ℕ) : ℚ) + 1 := by
      have : (0 : ℚ) ≤ ((2 * 2 ^ n : ℕ) : ℚ) := Nat.cast_nonneg _
      linarith
    have e5 : (1 : ℚ) / 5 / 10 ^ D * (5 / q) = 1 / (1 * (10 ^ D * q)) := by field_simp
    rw [e5]
    gcongr
  have A2 := tailS 5 a (by norm_num) h1
  have B2 := tailS 239 b (by norm_num) h2
  rw [s'] at A2 a1
  rw [t'] at B2 b1
  have A2' := (Rat.cast_le (K := ℝ)).mpr A2
  have B2' := (Rat.cast_le (K := ℝ)).mpr B2
  push_cast at A2' B2' a1 a2 b1 b2
  have hs0 : (0 : ℝ) < (atanTree 5 a 0).2 := by exact_mod_cast s0
  have ht0 : (0 : ℝ) < (atanTree 239 b 0).2 := by exact_mod_cast t0
  unfold piScaled at h0 ⊢
  generalize (atanTree 5 a 0).1 = s1 at *
  generalize (atanTree 5 a 0).2 = s2 at *
  generalize (atanTree 239 b 0).1 = t1 at *
  generalize (atanTree 239 b 0).2 = t2 at *
  have hsub : 4 * (t1 * 5) * s2 ≤ 16 * (s1 * 239) * t2 := by
    by_contra hc
    rw [Nat.sub_eq_zero_of_le (by omega), zero_mul, Nat.zero_div] at h0
    exact lt_irrefl _ h0
  have hden : 0 < 5 * 239 * s2 * t2 := by positivity
  obtain ⟨n, hn⟩ : ∃ n, n = (16 * (s1 * 239) * t2 - 4 * (t1 * 5) * s2) * 10 ^ D := ⟨_, rfl⟩
  have hnR : (n : ℝ) = (16 * (s1 * 239) * t2 - 4 * (t1 * 5) * s2) * 10 ^ D := by
    rw [hn]; push_cast [Nat.cast_sub hsub]; ring
  rw [← hn]
  have x1 : ((n / (5 * 239 * s2 * t2) : ℕ) : ℝ) * ((5 * 239 * s2 * t2 : ℕ) : ℝ) ≤ n := by exact_mod_cast Nat.div_mul_le_self _ _
  have x2 : (n : ℝ) < (((n / (5 * 239 * s2 * t2) : ℕ) : ℝ) + 1) * ((5 * 239 * s2 * t2 : ℕ) : ℝ) := by
    have := Nat.lt_mul_of_div_lt (Nat.lt_succ_self (n / (5 * 239 * s2 * t2))) hden
    have h3 : n < (n / (5 * 239 * s2 * t2) + 1) * (5 * 239 * s2 * t2) := this
    exact_mod_cast h3
  generalize ((n / (5 * 239 * s2 * t2) : ℕ) : ℝ) = X at *
  have hdR : (0 : ℝ) < ((5 * 239 * s2 * t2 : ℕ) : ℝ) := by exact_mod_cast hden
  have hY : (n : ℝ) / ((5 * 239 * s2 * t2 : ℕ) : ℝ) = (16 * ((s1 : ℝ) / s2 / 5) - 4 * ((t1 : ℝ) / t2 / 239)) * 10 ^ D := by
    rw [hnR]; push_cast; field_simp; ring
  rw [← le_div_iff₀ hdR, hY] at x1
  rw [← div_lt_iff₀ hdR, hY] at x2
  have hp : (0 : ℝ) < 10 ^ D := by positivity
  have hδ : (1 : ℝ) / 5 / 10 ^ D * 10 ^ D = 1 / 5 := by field_simp
  have hδ0 : (0 : ℝ) < 1 / 5 / 10 ^ D := by positivity
  generalize (1 : ℝ) / 5 / 10 ^ D = δ at *
  norm_num at A2' B2' a1 a2 b1 b2
  generalize (s1 : ℝ) / s2 / 5 = S at *
  generalize (t1 : ℝ) / t2 / 239 = T at *
  generalize (10 : ℝ) ^ D = P at *
  have lo : (16 * S - 4 * T) - 4 * δ ≤ Real.pi := by
    norm_num at hm; linarith
  have hi : Real.pi ≤ (16 * S - 4 * T) + 16 * δ := by
    norm_num at hm; linarith
  have lo' := mul_le_mul_of_nonneg_right lo hp.le
  have hi' := mul_le_mul_of_nonneg_right hi hp.le
  constructor
  · nlinarith
  · nlinarith

/-- The digits of π in front of a block of digits that is not all 9 or all 0 (up to a few units). -/
theorem floor_pi {X D g : ℕ} (h : ((X : ℝ) - 1) ≤ Real.pi * 10 ^ D ∧ Real.pi * 10 ^ D < (X : ℝ) + 5) (hg : g ≤ D)
    (h1 : 1 ≤ X % 10 ^ g) (h2 : X % 10 ^ g + 5 ≤ 10 ^ g) : ⌊Real.pi * 10 ^ (D - g)⌋₊ = X / 10 ^ g := by
  have hdm := Nat.div_add_mod X (10 ^ g)
  have e : Real.pi * 10 ^ (D - g) = Real.pi * 10 ^ D / 10 ^ g := by
    rw [eq_div_iff (by positivity), mul_assoc, ← pow_add, Nat.sub_add_cancel hg]
  have hp : (0 : ℝ) < 10 ^ g := by positivity
  rw [e, Nat.floor_eq_iff (by positivity), le_div_iff₀ hp, div_lt_iff₀ hp]
  have k1 : X / 10 ^ g * 10 ^ g + 1 ≤ X := by rw [mul_comm]; omega
  have k2 : X + 5 ≤ (X / 10 ^ g + 1) * 10 ^ g := by rw [add_mul, one_mul, mul_comm (X / 10 ^ g)]; omega
  have k1' : ((X / 10 ^ g : ℕ) : ℝ) * 10 ^ g + 1 ≤ X := by exact_mod_cast k1
  have k2' : (X : ℝ) + 5 ≤ (((X / 10 ^ g : ℕ) : ℝ) + 1) * 10 ^ g := by exact_mod_cast k2
  exact ⟨by linarith [h.1], by linarith [h.2]⟩

set_option exponentiation.threshold 1000000 in
theorem piDigits_run : 1 ≤ piScaled 16 14 100020 % 10 ^ 20 ∧ piScaled 16 14 100020 % 10 ^ 20 + 5 ≤ 10 ^ 20 ∧
    1 ≤ piScaled 16 14 100020 % 10 ^ 90020 ∧ piScaled 16 14 100020 % 10 ^ 90020 + 5 ≤ 10 ^ 90020 ∧
    (piScaled 16 14 100020 / 10 ^ 20) % 10 ^ 64 = 3804329970695770150789337728658035712790913767420805655493624646 ∧
    (piScaled 16 14 100020 / 10 ^ 90020) % 10 ^ 64 = 2955249887275846101264836999892256959688159205600101655256375678 ∧
    Nat.ble 1 (piScaled 16 14 100020) = true ∧ Nat.ble (10 ^ 100020) (5 ^ (4 * 2 ^ 16)) = true ∧
    Nat.ble (10 ^ 100020) (239 ^ (4 * 2 ^ 14)) = true := by decide +kernel

/-- **C73**: the leading control limbs of each limb type are the first digits of π: a valid limb string whose first limb is 3 and
    whose value is π with 56 decimals, rounded down. -/
theorem pi_control_head (L : Limb) : ValidLimbs L.mask (piHead L) ∧ (piHead L).length = 56 / L.ed + 1 ∧
    limbsVal L.mask (piHead L) = ⌊Real.pi * 10 ^ 56⌋₊ := by
  have h := pi_interval
  have hl : (314159265358979323846264338327950288419716939937510582097 : ℝ) ≤ Real.pi * 10 ^ 56 := by
    have := mul_le_mul_of_nonneg_right h.1 (by norm_num : (0 : ℝ) ≤ 10 ^ 56)
    refine le_trans ?_ this
    norm_num
  have hu : Real.pi * 10 ^ 56 < 314159265358979323846264338327950288419716939937510582098 := by
    have := mul_lt_mul_of_pos_right h.2 (by norm_num : (0 : ℝ) < 10 ^ 56)
    refine lt_of_lt_of_le this ?_
    norm_num
  have e : ⌊Real.pi * 10 ^ 56⌋₊ = 314159265358979323846264338327950288419716939937510582097 := by
    rw [Nat.floor_eq_iff (by positivity)]
    constructor
    · push_cast; exact hl
    · push_cast; exact lt_of_lt_of_le hu (by norm_num)
  rw [e]
  cases L <;> refine ⟨by decide, by decide, by decide⟩

theorem pi_tail_of {a b D g M T : ℕ} (hM : D - g = M) (hg : g ≤ D) (r1 : 1 ≤ piScaled a b D % 10 ^ g)
    (r2 : piScaled a b D % 10 ^ g + 5 ≤ 10 ^ g) (r3 : piScaled a b D / 10 ^ g % 10 ^ 64 = T) (h0 : Nat.ble 1 (piScaled a b D) = true)
    (h1 : Nat.ble (10 ^ D) (5 ^ (4 * 2 ^ a)) = true) (h2 : Nat.ble (10 ^ D) (239 ^ (4 * 2 ^ b)) = true) :
    ⌊Real.pi * 10 ^ M⌋₊ % 10 ^ 64 = T := by
  have sp := piScaled_spec (Nat.le_of_ble_eq_true h0) (Nat.le_of_ble_eq_true h1) (Nat.le_of_ble_eq_true h2)
  rw [← hM, floor_pi sp hg r1 r2, r3]

set_option exponentiation.threshold 1000000 in
theorem pi_tails : ⌊Real.pi * 10 ^ 10000⌋₊ % 10 ^ 64 = 2955249887275846101264836999892256959688159205600101655256375678 ∧
    ⌊Real.pi * 10 ^ 100000⌋₊ % 10 ^ 64 = 3804329970695770150789337728658035712790913767420805655493624646 :=
  ⟨pi_tail_of (a := 16) (b := 14) (D := 100020) (g := 90020) (by norm_num) (by norm_num) piDigits_run.2.2.1 piDigits_run.2.2.2.1 piDigits_run.2.2.2.2.2.1 piDigits_run.2.2.2.2.2.2.1
      piDigits_run.2.2.2.2.2.2.2.1 piDigits_run.2.2.2.2.2.2.2.2,
    pi_tail_of (a := 16) (b := 14) (D := 100020) (g := 20) (by norm_num) (by norm_num) piDigits_run.1 piDigits_run.2.1 piDigits_run.2.2.2.2.1 piDigits_run.2.2.2.2.2.2.1
      piDigits_run.2.2.2.2.2.2.2.1 piDigits_run.2.2.2.2.2.2.2.2⟩

/-- **C73** (partial): the trailing control limbs of the 10001- and the 100001-digit π are the last 64 of the 10^4 and of the 10^5
    decimals of π, for each limb type. Missing: the tail of the 1000001-digit π. -/
theorem pi_control_tail_partial (L : Limb) : ValidLimbs L.mask (piTail4 L) ∧ (piTail4 L).length = 64 / L.ed ∧
    limbsVal L.mask (piTail4 L) = ⌊Real.pi * 10 ^ 10000⌋₊ % 10 ^ 64 ∧
    ValidLimbs L.mask (piTail5 L) ∧ (piTail5 L).length = 64 / L.ed ∧
    limbsVal L.mask (piTail5 L) = ⌊Real.pi * 10 ^ 100000⌋₊ % 10 ^ 64 := by
  rw [pi_tails.1, pi_tails.2]
  cases L <;> refine ⟨by decide, by decide, by decide, by decide, by decide, by decide⟩

/-- Non-vacuity: with 4 + 2 terms the same computation gives the first decimals of π. -/
example : piScaled 1 0 5 = 314159 ∧ 10 ^ 5 ≤ 5 ^ (4 * 2 ^ 1) ∧ 1 ≤ 314159 % 10 ^ 3 ∧ 314159 % 10 ^ 3 + 5 ≤ 10 ^ 3 := by decide +kernel

end WD
