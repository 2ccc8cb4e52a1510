import Verif.Proofs.FftErr2
import Mathlib.Analysis.InnerProductSpace.PiL2
/-
  Energies of arrays of complex numbers; one level of butterflies.
-/
namespace WD
open Finset Complex

/-- Sum of squares of N numbers. -/
noncomputable def en (N : ℕ) (z : ℕ → ℂ) : ℝ := ∑ k ∈ range N, ‖z k‖ ^ 2

noncomputable def nrm (N : ℕ) (z : ℕ → ℂ) : ℝ := Real.sqrt (en N z)

theorem en_nonneg (N : ℕ) (z : ℕ → ℂ) : 0 ≤ en N z := sum_nonneg fun _ _ => by positivity

theorem nrm_nonneg (N : ℕ) (z : ℕ → ℂ) : 0 ≤ nrm N z := Real.sqrt_nonneg _

theorem nrm_sq (N : ℕ) (z : ℕ → ℂ) : nrm N z ^ 2 = en N z := Real.sq_sqrt (en_nonneg N z)

theorem en_congr {N : ℕ} {a b : ℕ → ℂ} (h : ∀ k, k < N → a k = b k) : en N a = en N b :=
  sum_congr rfl fun k hk => by rw [h k (mem_range.mp hk)]

theorem nrm_congr {N : ℕ} {a b : ℕ → ℂ} (h : ∀ k, k < N → a k = b k) : nrm N a = nrm N b := by rw [nrm, nrm, en_congr h]

theorem nrm_add_le (N : ℕ) (a b : ℕ → ℂ) : nrm N (fun k => a k + b k) ≤ nrm N a + nrm N b := by
  have h : ∀ z : ℕ → ℂ, nrm N z = ‖(WithLp.toLp 2 (fun i : Fin N => z i) : EuclideanSpace ℂ (Fin N))‖ := by
    intro z
    rw [EuclideanSpace.norm_eq, nrm, en, sum_range]
  rw [h, h, h]
  exact norm_add_le (WithLp.toLp 2 (fun i : Fin N => a i) : EuclideanSpace ℂ (Fin N)) (WithLp.toLp 2 (fun i : Fin N => b i))

theorem nrm_sub_le (N : ℕ) (a b c : ℕ → ℂ) : nrm N (fun k => a k - c k) ≤ nrm N (fun k => a k - b k) + nrm N (fun k => b k - c k) := by
  refine le_trans (le_of_eq (nrm_congr fun k _ => ?_)) (nrm_add_le N _ _)
  beta_reduce; ring

theorem nrm_le_add (N : ℕ) (a b : ℕ → ℂ) : nrm N a ≤ nrm N (fun k => a k - b k) + nrm N b := by
  refine le_trans (le_of_eq (nrm_congr fun k _ => ?_)) (nrm_add_le N _ _)
  beta_reduce; ring

theorem nrm_le_of_en {N M : ℕ} {a b : ℕ → ℂ} {c : ℝ} (hc : 0 ≤ c) (h : en N a ≤ c ^ 2 * en M b) : nrm N a ≤ c * nrm M b := by
  unfold nrm
  rw [Real.sqrt_le_left (by positivity), mul_pow, Real.sq_sqrt (en_nonneg _ _)]
  exact h

theorem en_le_of_nrm {N M : ℕ} {a b : ℕ → ℂ} {c : ℝ} (hc : 0 ≤ c) (h : nrm N a ≤ c * nrm M b) : en N a ≤ c ^ 2 * en M b := by
  rw [← nrm_sq, ← nrm_sq, ← mul_pow]
  exact pow_le_pow_left₀ (nrm_nonneg _ _) h 2

theorem nrm_mono {N : ℕ} {a b : ℕ → ℂ} {c : ℝ} (hc : 0 ≤ c) (h : ∀ k, k < N → ‖a k‖ ≤ c * ‖b k‖) : nrm N a ≤ c * nrm N b := by
  apply nrm_le_of_en hc
  unfold en
  rw [mul_sum]
  refine sum_le_sum fun k hk => ?_
  rw [← mul_pow]
  exact pow_le_pow_left₀ (norm_nonneg _) (h k (mem_range.mp hk)) 2

theorem le_nrm {N : ℕ} (a : ℕ → ℂ) {k : ℕ} (hk : k < N) : ‖a k‖ ≤ nrm N a := by
  rw [nrm, Real.le_sqrt (norm_nonneg _) (en_nonneg _ _)]
  exact single_le_sum (f := fun k => ‖a k‖ ^ 2) (fun _ _ => by positivity) (mem_range.mpr hk)

theorem en_split (H : ℕ) (z : ℕ → ℂ) : en (2 * H) z = en H z + en H (fun k => z (H + k)) := by
  unfold en
  rw [two_mul, sum_range_add]

theorem en_add (H : ℕ) (a b : ℕ → ℂ) : en H a + en H b = ∑ k ∈ range H, (‖a k‖ ^ 2 + ‖b k‖ ^ 2) := by
  unfold en; rw [sum_add_distrib]

/-- Butterflies of complex numbers. -/
noncomputable def cbf (H : ℕ) (W E : ℕ → ℂ) (k : ℕ) : ℂ := if k < H then E k + W k * E (H + k) else E (k - H) - W (k - H) * E k

theorem cbf_lo {H : ℕ} {W E : ℕ → ℂ} {k : ℕ} (h : k < H) : cbf H W E k = E k + W k * E (H + k) := by rw [cbf, if_pos h]
theorem cbf_hi (H : ℕ) (W E : ℕ → ℂ) (k : ℕ) : cbf H W E (H + k) = E k - W k * E (H + k) := by
  rw [cbf, if_neg (by omega), show H + k - H = k by omega]

theorem parallelogram (a b : ℂ) : ‖a + b‖ ^ 2 + ‖a - b‖ ^ 2 = 2 * (‖a‖ ^ 2 + ‖b‖ ^ 2) := by
  have := parallelogram_law_with_norm ℝ a b
  nlinarith

theorem en_cbf {H : ℕ} {W : ℕ → ℂ} (hW : ∀ k, k < H → ‖W k‖ = 1) (E : ℕ → ℂ) : en (2 * H) (cbf H W E) = 2 * en (2 * H) E := by
  rw [en_split, en_split, en_add, en_add, mul_sum]
  refine sum_congr rfl fun k hk => ?_
  have hk := mem_range.mp hk
  rw [cbf_lo hk, cbf_hi, parallelogram, norm_mul, hW k hk, one_mul]

/-- The rounding errors of one butterfly. -/
theorem pair_err {p q s x y b u g : ℝ} (hu : 0 ≤ u) (hg : 0 ≤ g) (hp : 0 ≤ p) (hq : 0 ≤ q) (hs : 0 ≤ s) (hb : 0 ≤ b) (hbs : b ≤ s)
    (hx0 : 0 ≤ x) (hy0 : 0 ≤ y) (hpq : p ^ 2 + q ^ 2 = 2 * s ^ 2) (hx : x ≤ u * p + g * b) (hy : y ≤ u * q + g * b) : x ^ 2 + y ^ 2 ≤ 2 * (u + g) ^ 2 * s ^ 2 := by
  have h1 : p + q ≤ 2 * s := by
    apply abs_le_of_sq_le_sq' _ (by positivity) |>.2
    nlinarith [sq_nonneg (p - q)]
  have h2 : x ^ 2 ≤ (u * p + g * b) ^ 2 := pow_le_pow_left₀ hx0 hx 2
  have h3 : y ^ 2 ≤ (u * q + g * b) ^ 2 := pow_le_pow_left₀ hy0 hy 2
  have h4 : (u * p + g * b) ^ 2 + (u * q + g * b) ^ 2 = u ^ 2 * (2 * s ^ 2) + 2 * (u * g) * (b * (p + q)) + 2 * g ^ 2 * b ^ 2 := by
    rw [← hpq]; ring
  have h5 : b * (p + q) ≤ s * (2 * s) := mul_le_mul hbs h1 (by positivity) hs
  have h6 : b ^ 2 ≤ s ^ 2 := pow_le_pow_left₀ hb hbs 2
  have h7 := mul_le_mul_of_nonneg_left h5 (by positivity : 0 ≤ 2 * (u * g))
  have h8 := mul_le_mul_of_nonneg_left h6 (by positivity : 0 ≤ 2 * g ^ 2)
  nlinarith

/-- One level: the errors of the inputs and of the butterflies. -/
theorem level {H : ℕ} {W Y Y' E : ℕ → ℂ} {u g ε : ℝ} (hu : 0 ≤ u) (hg : 0 ≤ g) (hε : 0 ≤ ε) (hW : ∀ k, k < H → ‖W k‖ = 1)
    (h1 : ∀ k, k < H → ‖Y' k - (Y k + W k * Y (H + k))‖ ≤ u * ‖Y k + W k * Y (H + k)‖ + g * ‖Y (H + k)‖)
    (h2 : ∀ k, k < H → ‖Y' (H + k) - (Y k - W k * Y (H + k))‖ ≤ u * ‖Y k - W k * Y (H + k)‖ + g * ‖Y (H + k)‖)
    (hY : nrm (2 * H) (fun k => Y k - E k) ≤ ε * nrm (2 * H) E) :
    nrm (2 * H) (fun k => Y' k - cbf H W E k) ≤ (ε + (u + g) * (1 + ε)) * nrm (2 * H) (cbf H W E) := by
  have s2 : Real.sqrt 2 ^ 2 = 2 := Real.sq_sqrt (by norm_num)
  have hE : nrm (2 * H) (cbf H W E) = Real.sqrt 2 * nrm (2 * H) E := by
    unfold nrm; rw [en_cbf hW, Real.sqrt_mul (by norm_num)]
  have a1 : nrm (2 * H) (fun k => Y' k - cbf H W Y k) ≤ (Real.sqrt 2 * (u + g)) * nrm (2 * H) Y := by
    apply nrm_le_of_en (by positivity)
    rw [en_split, en_split, en_add, en_add, mul_sum]
    refine sum_le_sum fun k hk => ?_
    have hk := mem_range.mp hk
    beta_reduce
    rw [cbf_lo hk, cbf_hi, mul_pow, s2]
    have hp := parallelogram (Y k) (W k * Y (H + k))
    rw [norm_mul, hW k hk, one_mul] at hp
    have hs : Real.sqrt (‖Y k‖ ^ 2 + ‖Y (H + k)‖ ^ 2) ^ 2 = ‖Y k‖ ^ 2 + ‖Y (H + k)‖ ^ 2 := Real.sq_sqrt (by positivity)
    rw [← hs] at hp ⊢
    refine pair_err hu hg (norm_nonneg _) (norm_nonneg _) (Real.sqrt_nonneg _) (norm_nonneg (Y (H + k))) ?_ (norm_nonneg _) (norm_nonneg _) hp (h1 k hk) (h2 k hk)
    rw [Real.le_sqrt (norm_nonneg _) (by positivity)]
    nlinarith [sq_nonneg ‖Y k‖]
  have a2 : nrm (2 * H) (fun k => cbf H W Y k - cbf H W E k) = Real.sqrt 2 * nrm (2 * H) (fun k => Y k - E k) := by
    unfold nrm
    rw [← Real.sqrt_mul (by norm_num), ← en_cbf hW]
    congr 1
    refine en_congr fun k hk => ?_
    unfold cbf
    split <;> ring
  have a3 := nrm_le_add (2 * H) Y E
  have a4 := nrm_sub_le (2 * H) Y' (cbf H W Y) (cbf H W E)
  rw [a2] at a4
  rw [hE]
  have r2 : 0 ≤ Real.sqrt 2 := Real.sqrt_nonneg _
  have a5 : nrm (2 * H) Y ≤ (1 + ε) * nrm (2 * H) E := by linarith
  have a6 := mul_le_mul_of_nonneg_left a5 (by positivity : 0 ≤ Real.sqrt 2 * (u + g))
  have a7 := mul_le_mul_of_nonneg_left hY r2
  calc _ ≤ _ := a4
    _ ≤ Real.sqrt 2 * (u + g) * ((1 + ε) * nrm (2 * H) E) + Real.sqrt 2 * (ε * nrm (2 * H) E) := by linarith
    _ = _ := by ring

/-- Two halves. -/
theorem halves {H : ℕ} {Y E : ℕ → ℂ} {ε : ℝ} (hε : 0 ≤ ε) (h1 : nrm H (fun k => Y k - E k) ≤ ε * nrm H E)
    (h2 : nrm H (fun k => Y (H + k) - E (H + k)) ≤ ε * nrm H (fun k => E (H + k))) : nrm (2 * H) (fun k => Y k - E k) ≤ ε * nrm (2 * H) E := by
  apply nrm_le_of_en hε
  rw [en_split, en_split, mul_add]
  exact add_le_add (en_le_of_nrm hε h1) (en_le_of_nrm hε h2)

end WD
