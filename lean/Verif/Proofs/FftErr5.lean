import Verif.Proofs.FftErr4
/-
  Rounding errors of the complex transform: the levels.
-/
namespace WD
open Finset Complex

theorem toC_bfly_cbf (fwd : Bool) {H : ℕ} (y : ℕ → ℝ × ℝ) (k : ℕ) :
    toC (exactOps.bfly H (exactOps.tw fwd (2 * H)) y k) = cbf H (fun k => rootU fwd (2 * H) ^ k) (fun k => toC (y k)) k := by
  unfold FOps.bfly cbf
  split
  · rw [toC_cadd, toC_cmul, toC_tw fwd ⟨H, rfl⟩]
  · rw [toC_csub, toC_cmul, toC_tw fwd ⟨H, rfl⟩]

/-- The sum of the absolute values. -/
noncomputable def s1 (N : ℕ) (z : ℕ → ℂ) : ℝ := ∑ k ∈ range N, ‖z k‖

theorem s1_nonneg (N : ℕ) (z : ℕ → ℂ) : 0 ≤ s1 N z := sum_nonneg fun _ _ => norm_nonneg _

theorem s1_congr {N : ℕ} {a b : ℕ → ℂ} (h : ∀ k, k < N → a k = b k) : s1 N a = s1 N b :=
  sum_congr rfl fun k hk => by rw [h k (mem_range.mp hk)]

theorem s1_split (H : ℕ) (z : ℕ → ℂ) : s1 (2 * H) z = s1 H z + s1 H (fun k => z (H + k)) := by
  unfold s1; rw [two_mul, sum_range_add]

theorem s1_add_le (N : ℕ) (a b : ℕ → ℂ) : s1 N (fun k => a k + b k) ≤ s1 N a + s1 N b := by
  unfold s1; rw [← sum_add_distrib]; exact sum_le_sum fun k _ => norm_add_le _ _

theorem s1_sub_le (N : ℕ) (a b c : ℕ → ℂ) : s1 N (fun k => a k - c k) ≤ s1 N (fun k => a k - b k) + s1 N (fun k => b k - c k) := by
  refine le_trans (le_of_eq (s1_congr fun k _ => ?_)) (s1_add_le N _ _)
  beta_reduce; ring

theorem s1_le_add (N : ℕ) (a b : ℕ → ℂ) : s1 N a ≤ s1 N (fun k => a k - b k) + s1 N b := by
  refine le_trans (le_of_eq (s1_congr fun k _ => ?_)) (s1_add_le N _ _)
  beta_reduce; ring

theorem s1_brev (L : ℕ) (z : ℕ → ℂ) : s1 (2 ^ L) (fun k => z (brev L k)) = s1 (2 ^ L) z := by
  unfold s1
  refine sum_nbij' (brev L) (brev L) (fun k _ => mem_range.mpr (brev_lt L k)) (fun k _ => mem_range.mpr (brev_lt L k))
    (fun k hk => brev_brev L k (mem_range.mp hk)) (fun k hk => brev_brev L k (mem_range.mp hk)) (fun k _ => rfl)

theorem nrm_le_s1 (N : ℕ) (z : ℕ → ℂ) : nrm N z ≤ s1 N z := by
  unfold nrm
  rw [Real.sqrt_le_left (s1_nonneg _ _)]
  unfold en s1
  exact sum_sq_le_sq_sum_of_nonneg fun k _ => norm_nonneg _

theorem norm_dft_le {w : ℂ} (hw : ‖w‖ = 1) (N : ℕ) (z : ℕ → ℂ) (k : ℕ) : ‖dft w N z k‖ ≤ s1 N z := by
  refine le_trans (norm_sum_le _ _) (le_of_eq (sum_congr rfl fun j _ => ?_))
  rw [norm_mul, norm_pow, hw, one_pow, mul_one]

theorem nrm_mul_le (N : ℕ) (a b c : ℕ → ℂ) (h : ∀ k, k < N → ‖c k‖ ≤ ‖a k‖ * ‖b k‖) : s1 N c ≤ nrm N a * nrm N b := by
  unfold s1 nrm en
  refine le_trans (sum_le_sum fun k hk => h k (mem_range.mp hk)) ?_
  rw [← Real.sqrt_mul (sum_nonneg fun _ _ => by positivity)]
  apply Real.le_sqrt_of_sq_le
  exact sum_mul_sq_le_sq_mul_sq _ _ _

namespace Rnd
variable {K : Type} {O : FOps K} {ι : K → ℝ} {u : ℝ} (H : Rnd O ι u)

/-- The relative error of one level of butterflies whose factors have the error τ. -/
noncomputable def lvl (u τ : ℝ) : ℝ := 1.001 * τ + 4.1 * u

include H

theorem lvl_nonneg {τ : ℝ} (h : 0 ≤ τ) : 0 ≤ lvl u τ := by have := H.u0; unfold lvl; positivity

theorem lvl_le {τ : ℝ} (h0 : 0 ≤ τ) (h1 : τ ≤ 1 / 100) : u + (1 + u) * (τ + 3 * u * (1 + τ)) ≤ lvl u τ := by
  have hu := H.u0
  have hu1 := H.u1
  unfold lvl
  have a1 : u * τ ≤ u * (1 / 100) := mul_le_mul_of_nonneg_left h1 hu
  have a2 : u * τ ≤ 1 / 1000000 * τ := mul_le_mul_of_nonneg_right hu1 h0
  have a3 : u * u ≤ 1 / 1000000 * u := mul_le_mul_of_nonneg_right hu1 hu
  have a4 : u * u * τ ≤ 1 / 1000000 * u * τ := mul_le_mul_of_nonneg_right a3 h0
  nlinarith

/-- One level: the products with the factors. -/
theorem bfly_cmul (fwd : Bool) {h : ℕ} {τ : ℝ} (htw : ∀ k, k < h → ‖C ι (O.tw fwd (2 * h) k) - rootU fwd (2 * h) ^ k‖ ≤ τ) (y : ℕ → K × K) {k : ℕ} (hk : k < h) :
    ‖C ι (O.bfly h (O.tw fwd (2 * h)) y k) - (C ι (y k) + rootU fwd (2 * h) ^ k * C ι (y (h + k)))‖ ≤
      u * ‖C ι (y k) + rootU fwd (2 * h) ^ k * C ι (y (h + k))‖ + (1 + u) * (τ + 3 * u * (1 + τ)) * ‖C ι (y (h + k))‖ ∧
    ‖C ι (O.bfly h (O.tw fwd (2 * h)) y (h + k)) - (C ι (y k) - rootU fwd (2 * h) ^ k * C ι (y (h + k)))‖ ≤
      u * ‖C ι (y k) - rootU fwd (2 * h) ^ k * C ι (y (h + k))‖ + (1 + u) * (τ + 3 * u * (1 + τ)) * ‖C ι (y (h + k))‖ := by
  have hcm := H.cmulW (z := y (h + k)) (W := rootU fwd (2 * h) ^ k) (by rw [norm_pow, norm_rootU, one_pow]) (htw k hk)
  constructor
  · have := H.caddW (a := y k) hcm
    unfold FOps.bfly
    rw [if_pos hk, mul_assoc (1 + u)]; exact this
  · have := H.csubW (a := y k) hcm
    unfold FOps.bfly
    rw [if_neg (by omega), show h + k - h = k by omega, mul_assoc (1 + u)]; exact this

theorem bfly_err (fwd : Bool) {h : ℕ} {τ : ℝ} (h0 : 0 ≤ τ) (h1 : τ ≤ 1 / 100)
    (htw : ∀ k, k < h → ‖C ι (O.tw fwd (2 * h) k) - rootU fwd (2 * h) ^ k‖ ≤ τ) (y : ℕ → K × K) (E : ℕ → ℂ) {ε : ℝ} (hε : 0 ≤ ε)
    (hY : nrm (2 * h) (fun k => C ι (y k) - E k) ≤ ε * nrm (2 * h) E) :
    nrm (2 * h) (fun k => C ι (O.bfly h (O.tw fwd (2 * h)) y k) - cbf h (fun k => rootU fwd (2 * h) ^ k) E k) ≤
      (ε + lvl u τ * (1 + ε)) * nrm (2 * h) (cbf h (fun k => rootU fwd (2 * h) ^ k) E) := by
  have hu := H.u0
  have l := level (H := h) (W := fun k => rootU fwd (2 * h) ^ k) (Y := fun k => C ι (y k))
    (Y' := fun k => C ι (O.bfly h (O.tw fwd (2 * h)) y k)) (E := E) (u := u) (g := (1 + u) * (τ + 3 * u * (1 + τ))) (ε := ε)
    hu (by positivity) hε (fun k _ => by rw [norm_pow, norm_rootU, one_pow]) (fun k hk => (H.bfly_cmul fwd htw y hk).1)
    (fun k hk => (H.bfly_cmul fwd htw y hk).2) hY
  refine le_trans l (mul_le_mul_of_nonneg_right ?_ (nrm_nonneg _ _))
  have := mul_le_mul_of_nonneg_right (H.lvl_le h0 h1) (by linarith : 0 ≤ 1 + ε)
  linarith

theorem bfly_sup (fwd : Bool) {h : ℕ} {τ : ℝ} (h0 : 0 ≤ τ) (h1 : τ ≤ 1 / 100)
    (htw : ∀ k, k < h → ‖C ι (O.tw fwd (2 * h) k) - rootU fwd (2 * h) ^ k‖ ≤ τ) (y : ℕ → K × K) (E : ℕ → ℂ) {ε a b : ℝ} (hε : 0 ≤ ε)
    (hlo : ∀ k, k < h → ‖C ι (y k) - E k‖ ≤ ε * a ∧ ‖E k‖ ≤ a) (hhi : ∀ k, k < h → ‖C ι (y (h + k)) - E (h + k)‖ ≤ ε * b ∧ ‖E (h + k)‖ ≤ b) :
    ∀ k, k < 2 * h → ‖C ι (O.bfly h (O.tw fwd (2 * h)) y k) - cbf h (fun k => rootU fwd (2 * h) ^ k) E k‖ ≤ (ε + lvl u τ * (1 + ε)) * (a + b) ∧
      ‖cbf h (fun k => rootU fwd (2 * h) ^ k) E k‖ ≤ a + b := by
  have hu := H.u0
  have hlv := H.lvl_le h0 h1
  have g0 : 0 ≤ (1 + u) * (τ + 3 * u * (1 + τ)) := by positivity
  have core : ∀ k, k < h → ∀ (V : ℂ) (Z E' : ℂ), (∃ w : ℂ, ‖w‖ = 1 ∧ Z = C ι (y k) + w * C ι (y (h + k)) ∧ E' = E k + w * E (h + k)) →
      ‖V - Z‖ ≤ u * ‖Z‖ + (1 + u) * (τ + 3 * u * (1 + τ)) * ‖C ι (y (h + k))‖ →
      ‖V - E'‖ ≤ (ε + lvl u τ * (1 + ε)) * (a + b) ∧ ‖E'‖ ≤ a + b := by
    rintro k hk V Z E' ⟨w, hw, rfl, rfl⟩ hV
    obtain ⟨l1, l2⟩ := hlo k hk
    obtain ⟨k1, k2⟩ := hhi k hk
    have a0 : 0 ≤ a := le_trans (norm_nonneg _) l2
    have b0 : 0 ≤ b := le_trans (norm_nonneg _) k2
    have n1 : ‖C ι (y k)‖ ≤ (1 + ε) * a := by
      have : ‖C ι (y k)‖ ≤ ‖C ι (y k) - E k‖ + ‖E k‖ := by simpa using norm_add_le (C ι (y k) - E k) (E k)
      linarith
    have n2 : ‖C ι (y (h + k))‖ ≤ (1 + ε) * b := by
      have : ‖C ι (y (h + k))‖ ≤ ‖C ι (y (h + k)) - E (h + k)‖ + ‖E (h + k)‖ := by
        simpa using norm_add_le (C ι (y (h + k)) - E (h + k)) (E (h + k))
      linarith
    have n3 : ‖C ι (y k) + w * C ι (y (h + k))‖ ≤ (1 + ε) * (a + b) := by
      refine le_trans (norm_add_le _ _) ?_
      rw [norm_mul, hw, one_mul]; linarith
    have n4 : ‖E k + w * E (h + k)‖ ≤ a + b := by
      refine le_trans (norm_add_le _ _) ?_
      rw [norm_mul, hw, one_mul]; linarith
    refine ⟨?_, n4⟩
    have e : V - (E k + w * E (h + k)) = (V - (C ι (y k) + w * C ι (y (h + k)))) + ((C ι (y k) - E k) + w * (C ι (y (h + k)) - E (h + k))) := by ring
    rw [e]
    refine le_trans (norm_add_le _ _) ?_
    have n5 : ‖(C ι (y k) - E k) + w * (C ι (y (h + k)) - E (h + k))‖ ≤ ε * a + ε * b := by
      refine le_trans (norm_add_le _ _) ?_
      rw [norm_mul, hw, one_mul]; linarith
    have n6 := mul_le_mul_of_nonneg_left n3 hu
    have n7 := mul_le_mul_of_nonneg_left (le_trans n2 (by nlinarith : (1 + ε) * b ≤ (1 + ε) * (a + b))) g0
    have n8 := mul_le_mul_of_nonneg_right hlv (by positivity : 0 ≤ (1 + ε) * (a + b))
    nlinarith
  intro k hk
  rcases Nat.lt_or_ge k h with hkh | hkh
  · rw [cbf_lo hkh]
    exact core k hkh _ _ _ ⟨rootU fwd (2 * h) ^ k, by rw [norm_pow, norm_rootU, one_pow], rfl, rfl⟩ (H.bfly_cmul fwd htw y hkh).1
  · obtain ⟨j, rfl⟩ : ∃ j, k = h + j := ⟨k - h, by omega⟩
    rw [cbf_hi]
    refine core j (by omega) _ (C ι (y j) - rootU fwd (2 * h) ^ j * C ι (y (h + j))) _ ⟨-rootU fwd (2 * h) ^ j, by rw [norm_neg, norm_pow, norm_rootU, one_pow], by ring, by ring⟩
      (H.bfly_cmul fwd htw y (by omega)).2

omit H in
/-- Bounds T of the errors of the factors: T i for the butterflies of 2·2^i numbers, T' for the real transform. -/
structure TwB (O : FOps K) (ι : K → ℝ) (T : ℕ → ℝ) (T' : ℝ) (m : ℕ) : Prop where
  tw : ∀ (fwd : Bool) (i : ℕ), 2 ≤ i → i ≤ m + 2 → ∀ k, k < 2 ^ i → ‖C ι (O.tw fwd (2 * 2 ^ i) k) - rootU fwd (2 * 2 ^ i) ^ k‖ ≤ T i
  small : ∀ i : ℕ, 2 ≤ i → i ≤ m + 2 → T i ≤ 1 / 100
  rtw : ∀ (fwd : Bool) (k : ℕ), k + 1 < 4 * 2 ^ m → ‖C ι (O.rtw fwd (16 * 2 ^ m) k) - rootU fwd (16 * 2 ^ m) ^ (k + 1)‖ ≤ T'
  rsmall : T' ≤ 1 / 100

omit H in
theorem TwB.nonneg {T : ℕ → ℝ} {T' : ℝ} {m : ℕ} (B : TwB O ι T T' m) {i : ℕ} (h2 : 2 ≤ i) (hi : i ≤ m + 2) : 0 ≤ T i :=
  le_trans (norm_nonneg _) (B.tw true i h2 hi 0 (by positivity))

omit H in
theorem TwB.rnonneg {T : ℕ → ℝ} {T' : ℝ} {m : ℕ} (B : TwB O ι T T' m) : 0 ≤ T' :=
  le_trans (norm_nonneg _) (B.rtw true 0 (by have : 1 ≤ 2 ^ m := Nat.one_le_two_pow; omega))

omit H in
/-- The relative error of the complex transform of 8·2^m numbers. -/
noncomputable def eps (u : ℝ) (T : ℕ → ℝ) : ℕ → ℝ
  | 0 => 52 * u + lvl u (T 2) * (1 + 52 * u)
  | m + 1 => eps u T m + lvl u (T (m + 3)) * (1 + eps u T m)

theorem eps_nonneg {T : ℕ → ℝ} (m : ℕ) (hT : ∀ i, 2 ≤ i → i ≤ m + 2 → 0 ≤ T i) : 0 ≤ eps u T m := by
  have hu := H.u0
  induction m with
  | zero => have := H.lvl_nonneg (hT 2 le_rfl le_rfl); unfold eps; positivity
  | succ m ih =>
    have ih := ih fun i h1 h2 => hT i h1 (by omega)
    have := H.lvl_nonneg (hT (m + 3) (by omega) (by omega))
    unfold eps; positivity

/-- The transform of four numbers, in the maximum norm. -/
theorem four_sup (fwd : Bool) (z : ℕ → K × K) {k : ℕ} (hk : k < 4) :
    ‖C ι (O.four fwd z k) - toC (exactOps.four fwd (R ι z) k)‖ ≤ 52 * u * s1 4 (fun k => C ι (z k)) ∧
    ‖toC (exactOps.four fwd (R ι z) k)‖ ≤ s1 4 (fun k => C ι (z k)) := by
  have hu := H.u0
  obtain ⟨f1, f2⟩ := H.four_err fwd z
  constructor
  · have h1 := le_nrm (fun k => C ι (O.four fwd z k) - toC (exactOps.four fwd (R ι z) k)) hk
    have h2 : nrm 4 (fun k => toC (exactOps.four fwd (R ι z) k)) ≤ 2 * nrm 4 (fun k => C ι (z k)) := by
      apply nrm_le_of_en (by norm_num); rw [f2]; norm_num
    have h3 := nrm_le_s1 4 (fun k => C ι (z k))
    have h4 := mul_le_mul_of_nonneg_left (le_trans h2 (mul_le_mul_of_nonneg_left h3 (by norm_num : (0:ℝ) ≤ 2))) (by positivity : 0 ≤ 26 * u)
    refine le_trans h1 (le_trans f1 (le_trans h4 (le_of_eq ?_)))
    ring
  · rw [toC_four fwd (fun k => C ι (z (brev 2 k))) (R ι z) (fun k hk => by rw [brev_brev 2 k hk]; rfl) hk]
    refine le_trans (norm_dft_le (norm_rootU _ _) _ _ _) (le_of_eq ?_)
    exact s1_brev 2 (fun k => C ι (z k))

theorem dlf_err (fwd : Bool) {T : ℕ → ℝ} (m : ℕ)
    (B1 : ∀ i : ℕ, 2 ≤ i → i ≤ m + 2 → ∀ k, k < 2 ^ i → ‖C ι (O.tw fwd (2 * 2 ^ i) k) - rootU fwd (2 * 2 ^ i) ^ k‖ ≤ T i)
    (B2 : ∀ i : ℕ, 2 ≤ i → i ≤ m + 2 → T i ≤ 1 / 100) : ∀ z : ℕ → K × K,
    nrm (8 * 2 ^ m) (fun k => C ι (O.dlf fwd m z k) - toC (exactOps.dlf fwd m (R ι z) k)) ≤
      eps u T m * nrm (8 * 2 ^ m) (fun k => toC (exactOps.dlf fwd m (R ι z) k)) ∧
    en (8 * 2 ^ m) (fun k => toC (exactOps.dlf fwd m (R ι z) k)) = (8 * 2 ^ m : ℕ) * en (8 * 2 ^ m) (fun k => C ι (z k)) ∧
    ∀ k, k < 8 * 2 ^ m → ‖C ι (O.dlf fwd m z k) - toC (exactOps.dlf fwd m (R ι z) k)‖ ≤ eps u T m * s1 (8 * 2 ^ m) (fun k => C ι (z k)) ∧
      ‖toC (exactOps.dlf fwd m (R ι z) k)‖ ≤ s1 (8 * 2 ^ m) (fun k => C ι (z k)) := by
  have hu := H.u0
  have T0 : ∀ i, 2 ≤ i → i ≤ m + 2 → 0 ≤ T i := fun i h2 hi => le_trans (norm_nonneg _) (B1 i h2 hi 0 (by positivity))
  induction m with
  | zero =>
    intro z
    have e8 : 8 * 2 ^ 0 = 2 * 2 ^ 2 := by norm_num
    have f1 := H.four_err fwd z
    have f2 := H.four_err fwd (fun j => z (4 + j))
    set E : ℕ → ℂ := fun k => toC (if k < 4 then exactOps.four fwd (R ι z) k else exactOps.four fwd (R ι (fun j => z (4 + j))) (k - 4)) with hE
    have hX : ∀ k, toC (exactOps.dlf fwd 0 (R ι z) k) = cbf (2 ^ 2) (fun k => rootU fwd (2 * 2 ^ 2) ^ k) E k := by
      intro k
      exact toC_bfly_cbf fwd (H := 4) _ k
    set y : ℕ → K × K := fun k => if k < 4 then O.four fwd z k else O.four fwd (fun j => z (4 + j)) (k - 4) with hy
    have ho : ∀ k, O.dlf fwd 0 z k = O.bfly (2 ^ 2) (O.tw fwd (2 * 2 ^ 2)) y k := fun k => rfl
    have hlo : ∀ k, k < 4 → y k = O.four fwd z k ∧ E k = toC (exactOps.four fwd (R ι z) k) := by
      intro k hk; rw [hy, hE]; simp only [hk, if_true, and_self]
    have hhi : ∀ k, k < 4 → y (4 + k) = O.four fwd (fun j => z (4 + j)) k ∧ E (4 + k) = toC (exactOps.four fwd (R ι (fun j => z (4 + j))) k) := by
      intro k hk; rw [hy, hE]; beta_reduce
      rw [if_neg (by omega), if_neg (by omega), show 4 + k - 4 = k by omega]; exact ⟨rfl, rfl⟩
    have h2 : nrm (2 * 2 ^ 2) (fun k => C ι (y k) - E k) ≤ 52 * u * nrm (2 * 2 ^ 2) E := by
      have : nrm (2 * 2 ^ 2) (fun k => C ι (y k) - E k) ≤ 26 * u * nrm (2 * 2 ^ 2) E := by
        apply halves (H := 4) (by positivity)
        · rw [nrm_congr (b := fun k => C ι (O.four fwd z k) - toC (exactOps.four fwd (R ι z) k)) (fun k hk => by rw [(hlo k hk).1, (hlo k hk).2]),
            nrm_congr (a := E) (fun k hk => (hlo k hk).2)]
          exact f1.1
        · rw [nrm_congr (b := fun k => C ι (O.four fwd (fun j => z (4 + j)) k) - toC (exactOps.four fwd (R ι (fun j => z (4 + j))) k))
              (fun k hk => by rw [(hhi k hk).1, (hhi k hk).2]),
            nrm_congr (a := fun k => E (4 + k)) (fun k hk => (hhi k hk).2)]
          exact f2.1
      refine le_trans this (mul_le_mul_of_nonneg_right (by linarith) (nrm_nonneg _ _))
    have enE : en (2 * 2 ^ 2) E = 4 * en (2 * 2 ^ 2) (fun k => C ι (z k)) := by
      have := en_split 4 E
      have e' := en_split 4 (fun k => C ι (z k))
      rw [en_congr (a := E) (N := 4) (fun k hk => (hlo k hk).2), en_congr (a := fun k => E (4 + k)) (fun k hk => (hhi k hk).2), f1.2, f2.2] at this
      show en (2 * 4) E = 4 * en (2 * 4) _
      rw [this, e']; ring
    have t0 := T0 2 le_rfl le_rfl
    have t1 := B2 2 le_rfl le_rfl
    have tt := B1 2 le_rfl le_rfl
    rw [e8]
    refine ⟨?_, ?_, ?_⟩
    · have b := H.bfly_err fwd t0 t1 tt y E (by positivity) h2
      rw [nrm_congr (fun k _ => hX k), nrm_congr (b := fun k => C ι (O.bfly (2 ^ 2) (O.tw fwd (2 * 2 ^ 2)) y k) - cbf (2 ^ 2) (fun k => rootU fwd (2 * 2 ^ 2) ^ k) E k)
        (fun k _ => by rw [hX k, ho k])]
      exact b
    · rw [en_congr (fun k _ => hX k), en_cbf (fun k _ => by rw [norm_pow, norm_rootU, one_pow]), enE]
      norm_num; ring
    · have b := H.bfly_sup fwd t0 t1 tt y E (ε := 52 * u) (a := s1 4 (fun k => C ι (z k))) (b := s1 4 (fun k => C ι (z (4 + k)))) (by positivity)
        (fun k hk => by rw [(hlo k hk).1, (hlo k hk).2]; exact H.four_sup fwd z hk)
        (fun k hk => by
          have e := hhi k hk
          rw [show 2 ^ 2 + k = 4 + k from rfl, e.1, e.2]; exact H.four_sup fwd (fun j => z (4 + j)) hk)
      intro k hk
      have := b k hk
      rw [hX k, ho k, s1_split]
      exact this
  | succ m ih =>
    intro z
    have e8 : 8 * 2 ^ (m + 1) = 2 * 2 ^ (m + 3) := by rw [pow_add, pow_add]; ring
    have eN : 8 * 2 ^ m = 2 ^ (m + 3) := by rw [pow_add]; ring
    have ih := ih (fun i h1 h2 => B1 i h1 (by omega)) (fun i h1 h2 => B2 i h1 (by omega)) (fun i h1 h2 => T0 i h1 (by omega))
    rw [eN] at ih
    have f1 := ih z
    have f2 := ih (fun j => z (2 ^ (m + 3) + j))
    set E : ℕ → ℂ := fun k => toC (if k < 2 ^ (m + 3) then exactOps.dlf fwd m (R ι z) k else exactOps.dlf fwd m (R ι (fun j => z (2 ^ (m + 3) + j))) (k - 2 ^ (m + 3))) with hE
    have hX : ∀ k, toC (exactOps.dlf fwd (m + 1) (R ι z) k) = cbf (2 ^ (m + 3)) (fun k => rootU fwd (2 * 2 ^ (m + 3)) ^ k) E k := by
      intro k
      rw [FOps.dlf, eN, e8, toC_bfly_cbf]
      rfl
    set y : ℕ → K × K := fun k => if k < 2 ^ (m + 3) then O.dlf fwd m z k else O.dlf fwd m (fun j => z (2 ^ (m + 3) + j)) (k - 2 ^ (m + 3)) with hy
    have ho : ∀ k, O.dlf fwd (m + 1) z k = O.bfly (2 ^ (m + 3)) (O.tw fwd (2 * 2 ^ (m + 3))) y k := by
      intro k
      rw [FOps.dlf, eN, e8]
    have hlo : ∀ k, k < 2 ^ (m + 3) → y k = O.dlf fwd m z k ∧ E k = toC (exactOps.dlf fwd m (R ι z) k) := by
      intro k hk; rw [hy, hE]; simp only [hk, if_true, and_self]
    have hhi : ∀ k, k < 2 ^ (m + 3) → y (2 ^ (m + 3) + k) = O.dlf fwd m (fun j => z (2 ^ (m + 3) + j)) k ∧
        E (2 ^ (m + 3) + k) = toC (exactOps.dlf fwd m (R ι (fun j => z (2 ^ (m + 3) + j))) k) := by
      intro k hk; rw [hy, hE]; beta_reduce
      rw [if_neg (by omega), if_neg (by omega), show 2 ^ (m + 3) + k - 2 ^ (m + 3) = k by omega]; exact ⟨rfl, rfl⟩
    have hε0 : 0 ≤ eps u T m := H.eps_nonneg m fun i h1 h2 => T0 i h1 (by omega)
    have h2 : nrm (2 * 2 ^ (m + 3)) (fun k => C ι (y k) - E k) ≤ eps u T m * nrm (2 * 2 ^ (m + 3)) E := by
      apply halves hε0
      · rw [nrm_congr (b := fun k => C ι (O.dlf fwd m z k) - toC (exactOps.dlf fwd m (R ι z) k)) (fun k hk => by rw [(hlo k hk).1, (hlo k hk).2]),
          nrm_congr (a := E) (fun k hk => (hlo k hk).2)]
        exact f1.1
      · rw [nrm_congr (b := fun k => C ι (O.dlf fwd m (fun j => z (2 ^ (m + 3) + j)) k) - toC (exactOps.dlf fwd m (R ι (fun j => z (2 ^ (m + 3) + j))) k))
            (fun k hk => by rw [(hhi k hk).1, (hhi k hk).2]),
          nrm_congr (a := fun k => E (2 ^ (m + 3) + k)) (fun k hk => (hhi k hk).2)]
        exact f2.1
    have enE : en (2 * 2 ^ (m + 3)) E = (2 ^ (m + 3) : ℕ) * en (2 * 2 ^ (m + 3)) (fun k => C ι (z k)) := by
      have := en_split (2 ^ (m + 3)) E
      have e' := en_split (2 ^ (m + 3)) (fun k => C ι (z k))
      rw [en_congr (a := E) (N := 2 ^ (m + 3)) (fun k hk => (hlo k hk).2), en_congr (a := fun k => E (2 ^ (m + 3) + k)) (fun k hk => (hhi k hk).2), f1.2.1, f2.2.1] at this
      rw [this, e']; ring
    have t0 := T0 (m + 3) (by omega) (by omega)
    have t1 := B2 (m + 3) (by omega) (by omega)
    have tt := B1 (m + 3) (by omega) (by omega)
    rw [e8]
    refine ⟨?_, ?_, ?_⟩
    · have b := H.bfly_err fwd t0 t1 tt y E hε0 h2
      rw [nrm_congr (fun k _ => hX k), nrm_congr (b := fun k => C ι (O.bfly (2 ^ (m + 3)) (O.tw fwd (2 * 2 ^ (m + 3))) y k) - cbf (2 ^ (m + 3)) (fun k => rootU fwd (2 * 2 ^ (m + 3)) ^ k) E k)
        (fun k _ => by rw [hX k, ho k])]
      exact b
    · rw [en_congr (fun k _ => hX k), en_cbf (fun k _ => by rw [norm_pow, norm_rootU, one_pow]), enE]
      push_cast; ring
    · have b := H.bfly_sup fwd t0 t1 tt y E (a := s1 (2 ^ (m + 3)) (fun k => C ι (z k))) (b := s1 (2 ^ (m + 3)) (fun k => C ι (z (2 ^ (m + 3) + k)))) hε0
        (fun k hk => by rw [(hlo k hk).1, (hlo k hk).2]; exact f1.2.2 k hk)
        (fun k hk => by rw [(hhi k hk).1, (hhi k hk).2]; exact f2.2.2 k hk)
      intro k hk
      have := b k hk
      rw [hX k, ho k, s1_split]
      exact this

end Rnd
end WD
