import Verif.Proofs.FftErr5
/-
  Rounding errors of the complex transform, and of the steps between the complex and the real transform.
-/
namespace WD
open Finset Complex

local notation "conj" => starRingEnd ℂ

theorem en_brev (L : ℕ) (z : ℕ → ℂ) : en (2 ^ L) (fun k => z (brev L k)) = en (2 ^ L) z := by
  unfold en
  refine sum_nbij' (brev L) (brev L) (fun k _ => mem_range.mpr (brev_lt L k)) (fun k _ => mem_range.mpr (brev_lt L k))
    (fun k hk => brev_brev L k (mem_range.mp hk)) (fun k hk => brev_brev L k (mem_range.mp hk)) (fun k _ => rfl)

theorem exact_rnd : Rnd exactOps id 0 where
  u0 := le_rfl
  u1 := by norm_num
  add a b := by simp [exactOps]
  sub a b := by simp [exactOps]
  mul a b := by simp [exactOps]
  div a b := by simp [exactOps]
  half a := by simp [exactOps]
  neg a := by simp [exactOps]
  zero := by simp [exactOps]
  one := by simp [exactOps]
  minusTwo := by simp [exactOps]
  sin1 k _ _ := by simp [exactOps]

/-- The exact factors. -/
theorem exact_twB (m : ℕ) : Rnd.TwB exactOps id (fun _ => 0) 0 m where
  tw fwd i _ _ k _ := by
    have : Rnd.C id (exactOps.tw fwd (2 * 2 ^ i) k) = rootU fwd (2 * 2 ^ i) ^ k := toC_tw fwd ⟨2 ^ i, rfl⟩ k
    rw [this, sub_self, norm_zero]
  small _ _ _ := by norm_num
  rtw fwd k _ := by
    have : Rnd.C id (exactOps.rtw fwd (16 * 2 ^ m) k) = rootU fwd (16 * 2 ^ m) ^ (k + 1) := toC_rtw fwd ⟨8 * 2 ^ m, by ring⟩ k
    rw [this, sub_self, norm_zero]
  rsmall := by norm_num

theorem parseval (fwd : Bool) (m : ℕ) (z : ℕ → ℂ) :
    en (8 * 2 ^ m) (dft (rootU fwd (8 * 2 ^ m)) (8 * 2 ^ m) z) = (8 * 2 ^ m : ℕ) * en (8 * 2 ^ m) z := by
  have e : 8 * 2 ^ m = 2 ^ (m + 3) := by rw [pow_add]; ring
  have h := (exact_rnd.dlf_err fwd (T := fun _ => 0) m ((exact_twB m).tw fwd) (exact_twB m).small
    (fun k => ((z (brev (m + 3) k)).re, (z (brev (m + 3) k)).im))).2.1
  have h1 : ∀ k, k < 8 * 2 ^ m → dft (rootU fwd (8 * 2 ^ m)) (8 * 2 ^ m) z k =
      toC (exactOps.dlf fwd m (Rnd.R id (fun k => ((z (brev (m + 3) k)).re, (z (brev (m + 3) k)).im))) k) :=
    fun k hk => (toC_dlf fwd m z _ (fun k _ => rfl) k hk).symm
  rw [en_congr h1, h]
  congr 1
  rw [e, ← en_brev (m + 3) z]
  exact en_congr fun k _ => rfl

theorem parseval_nrm (fwd : Bool) (m : ℕ) (z : ℕ → ℂ) :
    nrm (8 * 2 ^ m) (dft (rootU fwd (8 * 2 ^ m)) (8 * 2 ^ m) z) = Real.sqrt (8 * 2 ^ m : ℕ) * nrm (8 * 2 ^ m) z := by
  unfold nrm
  rw [parseval fwd, Real.sqrt_mul (Nat.cast_nonneg _)]

theorem dft_sub (w : ℂ) (N : ℕ) (a b : ℕ → ℂ) (k : ℕ) : dft w N a k - dft w N b k = dft w N (fun j => a j - b j) k := by
  unfold dft
  rw [← sum_sub_distrib]
  refine sum_congr rfl fun j _ => ?_
  ring

namespace Rnd
variable {K : Type} {O : FOps K} {ι : K → ℝ} {u : ℝ} (H : Rnd O ι u)
include H

theorem cfft_err (fwd : Bool) {m : ℕ} {T : ℕ → ℝ} {T' : ℝ} (B : TwB O ι T T' m) (d : ℕ → K) :
    nrm (8 * 2 ^ m) (fun k => C ι (FOps.cx (O.cfft fwd m d) 0 k) - dft (rootU fwd (8 * 2 ^ m)) (8 * 2 ^ m) (fun j => C ι (FOps.cx d 0 j)) k) ≤
      eps u T m * (Real.sqrt (8 * 2 ^ m : ℕ) * nrm (8 * 2 ^ m) (fun j => C ι (FOps.cx d 0 j))) ∧
    ∀ k, k < 8 * 2 ^ m → ‖C ι (FOps.cx (O.cfft fwd m d) 0 k) - dft (rootU fwd (8 * 2 ^ m)) (8 * 2 ^ m) (fun j => C ι (FOps.cx d 0 j)) k‖ ≤
      eps u T m * s1 (8 * 2 ^ m) (fun j => C ι (FOps.cx d 0 j)) := by
  obtain ⟨h, -, hs⟩ := H.dlf_err fwd m (B.tw fwd) B.small (fun k => FOps.cx d 0 (brev (m + 3) k))
  have h1 : ∀ k, k < 8 * 2 ^ m → toC (exactOps.dlf fwd m (R ι (fun k => FOps.cx d 0 (brev (m + 3) k))) k) =
      dft (rootU fwd (8 * 2 ^ m)) (8 * 2 ^ m) (fun j => C ι (FOps.cx d 0 j)) k := fun k hk => toC_dlf fwd m _ _ (fun k _ => rfl) k hk
  constructor
  · rw [nrm_congr h1, parseval_nrm fwd] at h
    refine le_trans (le_of_eq (nrm_congr fun k hk => ?_)) h
    rw [h1 k hk, (O.cfft_spec fwd m d).1 k hk]
  · intro k hk
    have := (hs k hk).1
    have eN : 8 * 2 ^ m = 2 ^ (m + 3) := by rw [pow_add]; ring
    have e : s1 (8 * 2 ^ m) (fun k => C ι (FOps.cx d 0 (brev (m + 3) k))) = s1 (8 * 2 ^ m) (fun k => C ι (FOps.cx d 0 k)) := by
      rw [eN]; exact s1_brev (m + 3) (fun k => C ι (FOps.cx d 0 k))
    rwa [h1 k hk, e, ← (O.cfft_spec fwd m d).1 k hk] at this

omit H in
/-- A sum of three numbers rounded twice. -/
theorem tri {u x y1 y2 P1 P2 s t B : ℝ} (hu : 0 ≤ u) (hu1 : u ≤ 1 / 1000000) (h1 : |y1 - P1| ≤ u * |P1|) (h2 : |y2 - P2| ≤ u * |P2|)
    (hs : |s - (x + y1)| ≤ u * |x + y1|) (ht : |t - (s + y2)| ≤ u * |s + y2|) (hB : |x| + (|P1| + |P2|) ≤ B) : |t - (x + P1 + P2)| ≤ 3.001 * u * B := by
  have a1 : |y1| ≤ (1 + u) * |P1| := by have := abs_sub_abs_le_abs_sub y1 P1; linarith
  have a2 : |y2| ≤ (1 + u) * |P2| := by have := abs_sub_abs_le_abs_sub y2 P2; linarith
  have a3 : |x + y1| ≤ |x| + (1 + u) * |P1| := le_trans (abs_add_le _ _) (by linarith)
  have a4 := mul_le_mul_of_nonneg_left a3 hu
  have a5 : |s - (x + P1)| ≤ u * |x| + (2 * u + u ^ 2) * |P1| := by
    have : |s - (x + P1)| ≤ |s - (x + y1)| + |x + y1 - (x + P1)| := abs_sub_le _ _ _
    rw [show x + y1 - (x + P1) = y1 - P1 by ring] at this
    linarith
  have a6 : |s + y2| ≤ (1 + u) * |x| + (1 + u) ^ 2 * |P1| + (1 + u) * |P2| := by
    have b1 : |s + y2| ≤ |s| + |y2| := abs_add_le _ _
    have b2 : |s| ≤ |s - (x + P1)| + |x + P1| := by simpa using abs_add_le (s - (x + P1)) (x + P1)
    have b3 := abs_add_le x P1
    nlinarith
  have a7 := mul_le_mul_of_nonneg_left a6 hu
  have a8 : |t - (x + P1 + P2)| ≤ |t - (s + y2)| + (|s - (x + P1)| + |y2 - P2|) := by
    have e : t - (x + P1 + P2) = (t - (s + y2)) + ((s - (x + P1)) + (y2 - P2)) := by ring
    rw [e]
    exact le_trans (abs_add_le _ _) (add_le_add le_rfl (abs_add_le _ _))
  have n1 := abs_nonneg x
  have n2 := abs_nonneg P1
  have n3 := abs_nonneg P2
  have c2 : u ^ 2 ≤ u * (1 / 1000000) := by nlinarith
  have c3 : u * (1 + u) ^ 2 + (2 * u + u ^ 2) ≤ 3.001 * u := by nlinarith
  have c4 : u * (1 + u) + u ≤ 3.001 * u := by nlinarith
  have d1 := mul_le_mul_of_nonneg_right c3 n2
  have d2 := mul_le_mul_of_nonneg_right c4 n1
  have d3 := mul_le_mul_of_nonneg_right c4 n3
  have d4 := mul_le_mul_of_nonneg_left hB (by positivity : 0 ≤ 3.001 * u)
  linarith

omit H in
theorem unpk_fin {u τ : ℝ} (hu : 0 ≤ u) (hu1 : u ≤ 1 / 1000000) (hτ : τ ≤ 1 / 100) {o h1 h2 w W A B : ℂ} (hW : ‖W‖ = 1) (hw : ‖w - W‖ ≤ τ)
    (ho : ‖o - (h1 + w * h2)‖ ≤ 1.415 * (3.001 * u * (‖h1‖ + ‖w‖ * ‖h2‖))) (hA : ‖h1 - A‖ ≤ 2.001 * u * ‖A‖) (hB : ‖h2 - B‖ ≤ 2.001 * u * ‖B‖) :
    ‖o - (A + W * B)‖ ≤ (τ + 6.4 * u) * (‖A‖ + ‖B‖) := by
  have hw1 : ‖w‖ ≤ 1.01 := by
    have : ‖w‖ ≤ ‖w - W‖ + ‖W‖ := by simpa using norm_add_le (w - W) W
    linarith
  have g1 : ‖h1‖ ≤ 1.00001 * ‖A‖ := by
    have : ‖h1‖ ≤ ‖h1 - A‖ + ‖A‖ := by simpa using norm_add_le (h1 - A) A
    nlinarith [norm_nonneg A]
  have g2 : ‖h2‖ ≤ 1.00001 * ‖B‖ := by
    have : ‖h2‖ ≤ ‖h2 - B‖ + ‖B‖ := by simpa using norm_add_le (h2 - B) B
    nlinarith [norm_nonneg B]
  have e : o - (A + W * B) = (o - (h1 + w * h2)) + ((h1 - A) + (w * (h2 - B) + (w - W) * B)) := by ring
  rw [e]
  have t1 : ‖w * (h2 - B)‖ ≤ 1.01 * (2.001 * u * ‖B‖) := by
    rw [norm_mul]; exact mul_le_mul hw1 hB (norm_nonneg _) (by norm_num)
  have t2 : ‖(w - W) * B‖ ≤ τ * ‖B‖ := by rw [norm_mul]; exact mul_le_mul_of_nonneg_right hw (norm_nonneg _)
  have t3 : ‖w‖ * ‖h2‖ ≤ 1.01 * (1.00001 * ‖B‖) := mul_le_mul hw1 g2 (norm_nonneg _) (by norm_num)
  have t4 : ‖(o - (h1 + w * h2)) + ((h1 - A) + (w * (h2 - B) + (w - W) * B))‖ ≤ ‖o - (h1 + w * h2)‖ + (‖h1 - A‖ + (‖w * (h2 - B)‖ + ‖(w - W) * B‖)) :=
    le_trans (norm_add_le _ _) (add_le_add le_rfl (le_trans (norm_add_le _ _) (add_le_add le_rfl (norm_add_le _ _))))
  have t5 := mul_le_mul_of_nonneg_left (add_le_add g1 t3) (by positivity : 0 ≤ 1.415 * (3.001 * u))
  have nA := norm_nonneg A
  have nB := norm_nonneg B
  have hτ0 : 0 ≤ τ := le_trans (norm_nonneg _) hw
  have uA := mul_nonneg hu nA
  have uB := mul_nonneg hu nB
  have tA := mul_nonneg hτ0 nA
  nlinarith

/-- The numbers (a + b̄)/2 and -i(a - b̄)/2. -/
noncomputable def hA (a b : ℂ) : ℂ := (a + conj b) / 2
noncomputable def hB (a b : ℂ) : ℂ := -I * ((a - conj b) / 2)

theorem halfadd (a b : K) : |ι (O.half (O.add a b)) - (ι a + ι b) / 2| ≤ 2.001 * u * |(ι a + ι b) / 2| := by
  have hu := H.u0
  have hu1 := H.u1
  have h1 := H.add a b
  have h2 := H.half (O.add a b)
  generalize ι (O.half (O.add a b)) = y at *
  generalize ι (O.add a b) = x at *
  generalize ι a + ι b = s at *
  rw [abs_div, abs_two] at h2 ⊢
  have h3 : |x| ≤ (1 + u) * |s| := by have := abs_sub_abs_le_abs_sub x s; linarith
  have h4 : |y - s / 2| ≤ |y - x / 2| + |x / 2 - s / 2| := abs_sub_le _ _ _
  rw [show x / 2 - s / 2 = (x - s) / 2 by ring, abs_div (x - s), abs_two] at h4
  nlinarith [abs_nonneg s, mul_nonneg hu (abs_nonneg s)]

theorem halfsub (a b : K) : |ι (O.half (O.sub a b)) - (ι a - ι b) / 2| ≤ 2.001 * u * |(ι a - ι b) / 2| := by
  have hu := H.u0
  have hu1 := H.u1
  have h1 := H.sub a b
  have h2 := H.half (O.sub a b)
  generalize ι (O.half (O.sub a b)) = y at *
  generalize ι (O.sub a b) = x at *
  generalize ι a - ι b = s at *
  rw [abs_div, abs_two] at h2 ⊢
  have h3 : |x| ≤ (1 + u) * |s| := by have := abs_sub_abs_le_abs_sub x s; linarith
  have h4 : |y - s / 2| ≤ |y - x / 2| + |x / 2 - s / 2| := abs_sub_le _ _ _
  rw [show x / 2 - s / 2 = (x - s) / 2 by ring, abs_div (x - s), abs_two] at h4
  nlinarith [abs_nonneg s, mul_nonneg hu (abs_nonneg s)]

/-- The rounding errors of the step from the complex to the real transform, and back. -/
theorem unpk_err {w : K × K} {W : ℂ} {τ : ℝ} (hτ : τ ≤ 1 / 100) (hW : ‖W‖ = 1) (hw : ‖C ι w - W‖ ≤ τ) (a b : K × K) :
    ‖C ι (O.unpk true w a b).1 - (hA (C ι a) (C ι b) + W * hB (C ι a) (C ι b))‖ ≤ (τ + 6.4 * u) * (‖hA (C ι a) (C ι b)‖ + ‖hB (C ι a) (C ι b)‖) ∧
    ‖C ι (O.unpk true w a b).2 - conj (hA (C ι a) (C ι b) - W * hB (C ι a) (C ι b))‖ ≤ (τ + 6.4 * u) * (‖hA (C ι a) (C ι b)‖ + ‖hB (C ι a) (C ι b)‖) ∧
    ‖C ι (O.unpk false w a b).1 - (hA (C ι a) (C ι b) - W * hB (C ι a) (C ι b))‖ ≤ (τ + 6.4 * u) * (‖hA (C ι a) (C ι b)‖ + ‖hB (C ι a) (C ι b)‖) ∧
    ‖C ι (O.unpk false w a b).2 - conj (hA (C ι a) (C ι b) + W * hB (C ι a) (C ι b))‖ ≤ (τ + 6.4 * u) * (‖hA (C ι a) (C ι b)‖ + ‖hB (C ι a) (C ι b)‖) := by
  have hu := H.u0
  have hu1 := H.u1
  obtain ⟨w1, w2⟩ := w
  obtain ⟨a1, a2⟩ := a
  obtain ⟨b1, b2⟩ := b
  set h1r := O.half (O.add a1 b1) with e1
  set h1i := O.half (O.sub a2 b2) with e2
  set h2r := O.half (O.add a2 b2) with e3
  set h2i := O.half (O.sub a1 b1) with e4
  have q1 := H.halfadd a1 b1
  have q2 := H.halfsub a2 b2
  have q3 := H.halfadd a2 b2
  have q4 := H.halfsub a1 b1
  rw [← e1] at q1; rw [← e2] at q2; rw [← e3] at q3; rw [← e4] at q4
  set A := hA (C ι (a1, a2)) (C ι (b1, b2)) with hAd
  set B := hB (C ι (a1, a2)) (C ι (b1, b2)) with hBd
  have A1 : A = ⟨(ι a1 + ι b1) / 2, (ι a2 - ι b2) / 2⟩ := by
    rw [hAd]; unfold hA C toC
    apply Complex.ext <;> simp [-map_add, -map_sub, -map_mul, -map_div₀, -map_neg]; ring
  have B1 : B = ⟨(ι a2 + ι b2) / 2, -((ι a1 - ι b1) / 2)⟩ := by
    rw [hBd]; unfold hB C toC
    apply Complex.ext <;> simp [-map_add, -map_sub, -map_mul, -map_div₀, -map_neg]
  set h1 : ℂ := ⟨ι h1r, ι h1i⟩ with h1d
  set h2 : ℂ := ⟨ι h2r, -ι h2i⟩ with h2d
  have gA : ‖h1 - A‖ ≤ 2.001 * u * ‖A‖ := by
    refine norm_comp (by positivity) ?_ ?_
    · rw [A1]; exact q1
    · rw [A1]; exact q2
  have gB : ‖h2 - B‖ ≤ 2.001 * u * ‖B‖ := by
    refine norm_comp (by positivity) ?_ ?_
    · rw [B1]; exact q3
    · rw [B1, h2d]
      show |-ι h2i - -((ι a1 - ι b1) / 2)| ≤ 2.001 * u * |-((ι a1 - ι b1) / 2)|
      rw [← neg_add', abs_neg, abs_neg, ← sub_eq_add_neg]; exact q4
  set w : ℂ := C ι (w1, w2) with hwd
  have hwn : ‖w‖ = ‖(⟨ι w1, ι w2⟩ : ℂ)‖ := rfl
  have hh2n : ‖h2‖ = ‖(⟨ι h2r, ι h2i⟩ : ℂ)‖ := by
    rw [h2d, Complex.norm_def, Complex.norm_def, Complex.normSq_apply, Complex.normSq_apply]; simp
  have m11 := H.mul w1 h2r
  have m22 := H.mul w2 h2i
  have m12 := H.mul w1 h2i
  have m21 := H.mul w2 h2r
  have n11 : |-ι (O.mul w1 h2r) - -(ι w1 * ι h2r)| ≤ u * |-(ι w1 * ι h2r)| := by rw [← neg_add', abs_neg, abs_neg, ← sub_eq_add_neg]; exact m11
  have n22 : |-ι (O.mul w2 h2i) - -(ι w2 * ι h2i)| ≤ u * |-(ι w2 * ι h2i)| := by rw [← neg_add', abs_neg, abs_neg, ← sub_eq_add_neg]; exact m22
  have n12 : |-ι (O.mul w1 h2i) - -(ι w1 * ι h2i)| ≤ u * |-(ι w1 * ι h2i)| := by rw [← neg_add', abs_neg, abs_neg, ← sub_eq_add_neg]; exact m12
  have n21 : |-ι (O.mul w2 h2r) - -(ι w2 * ι h2r)| ≤ u * |-(ι w2 * ι h2r)| := by rw [← neg_add', abs_neg, abs_neg, ← sub_eq_add_neg]; exact m21
  have cR : |ι h1r| + (|ι w1 * ι h2r| + |ι w2 * ι h2i|) ≤ ‖h1‖ + ‖w‖ * ‖h2‖ := by
    rw [abs_mul, abs_mul, hwn, hh2n]
    exact add_le_add (abs_re_le_norm h1) (cs_le _ _ _ _)
  have cI : |ι h1i| + (|ι w1 * ι h2i| + |ι w2 * ι h2r|) ≤ ‖h1‖ + ‖w‖ * ‖h2‖ := by
    rw [abs_mul, abs_mul, hwn, hh2n]
    exact add_le_add (abs_im_le_norm h1) (cs_le' _ _ _ _)
  have hsub : ∀ a b : K, |ι (O.sub a b) - (ι a + -ι b)| ≤ u * |ι a + -ι b| := fun a b => by
    have := H.sub a b; rwa [sub_eq_add_neg (ι a)] at this
  have wre : w.re = ι w1 := rfl
  have wim : w.im = ι w2 := rfl
  have B0 : 0 ≤ 3.001 * u * (‖h1‖ + ‖w‖ * ‖h2‖) := by positivity
  have nW : ‖-W‖ = 1 := by rw [norm_neg]; exact hW
  have nw : ‖-w - -W‖ ≤ τ := by rw [← neg_add', norm_neg, ← sub_eq_add_neg]; exact hw
  have B0n : ‖-w‖ = ‖w‖ := norm_neg w
  refine ⟨?_, ?_, ?_, ?_⟩
  · refine unpk_fin hu hu1 hτ hW hw (norm_box B0 ?_ ?_) gA gB
    · have := tri hu hu1 m11 m22 (H.add h1r (O.mul w1 h2r)) (H.add _ (O.mul w2 h2i)) cR
      refine le_trans (le_of_eq ?_) this
      congr 1
      simp [C, toC, FOps.unpk, h1d, h2d, wre, wim]; ring
    · have := tri (B := ‖h1‖ + ‖w‖ * ‖h2‖) (x := ι h1i) hu hu1 n12 m21 (hsub h1i (O.mul w1 h2i)) (H.add _ (O.mul w2 h2r)) (by rwa [abs_neg])
      refine le_trans (le_of_eq ?_) this
      congr 1
      simp [C, toC, FOps.unpk, h1d, h2d, wre, wim]; ring
  · rw [← Complex.norm_conj, map_sub, conj_conj, sub_eq_add_neg A, ← neg_mul]
    refine unpk_fin hu hu1 hτ nW nw (norm_box (by rw [B0n]; exact B0) ?_ ?_) gA gB
    · rw [B0n]
      have := tri (B := ‖h1‖ + ‖w‖ * ‖h2‖) (x := ι h1r) hu hu1 n11 n22 (hsub h1r (O.mul w1 h2r)) (hsub _ (O.mul w2 h2i)) (by rwa [abs_neg, abs_neg])
      refine le_trans (le_of_eq ?_) this
      congr 1
      simp [C, toC, FOps.unpk, h1d, h2d, wre, wim]; ring
    · rw [B0n]
      have := tri (B := ‖h1‖ + ‖w‖ * ‖h2‖) (x := ι (O.neg h1i)) hu hu1 n12 m21 (hsub (O.neg h1i) (O.mul w1 h2i)) (H.add _ (O.mul w2 h2r)) (by rwa [H.neg, abs_neg, abs_neg])
      refine le_trans (le_of_eq ?_) this
      rw [← abs_neg]
      congr 1
      simp [C, toC, FOps.unpk, h1d, h2d, wre, wim, H.neg]; ring
  · rw [sub_eq_add_neg A, ← neg_mul]
    refine unpk_fin hu hu1 hτ nW nw (norm_box (by rw [B0n]; exact B0) ?_ ?_) gA gB
    · rw [B0n]
      have := tri (B := ‖h1‖ + ‖w‖ * ‖h2‖) (x := ι h1r) hu hu1 n11 n22 (hsub h1r (O.mul w1 h2r)) (hsub _ (O.mul w2 h2i)) (by rwa [abs_neg, abs_neg])
      refine le_trans (le_of_eq ?_) this
      congr 1
      simp [C, toC, FOps.unpk, h1d, h2d, wre, wim]; ring
    · rw [B0n]
      have := tri (B := ‖h1‖ + ‖w‖ * ‖h2‖) (x := ι h1i) hu hu1 m12 n21 (H.add h1i (O.mul w1 h2i)) (hsub _ (O.mul w2 h2r)) (by rwa [abs_neg])
      refine le_trans (le_of_eq ?_) this
      congr 1
      simp [C, toC, FOps.unpk, h1d, h2d, wre, wim]; ring
  · rw [← Complex.norm_conj, map_sub, conj_conj]
    refine unpk_fin hu hu1 hτ hW hw (norm_box B0 ?_ ?_) gA gB
    · have := tri hu hu1 m11 m22 (H.add h1r (O.mul w1 h2r)) (H.add _ (O.mul w2 h2i)) cR
      refine le_trans (le_of_eq ?_) this
      congr 1
      simp [C, toC, FOps.unpk, h1d, h2d, wre, wim]; ring
    · have := tri (B := ‖h1‖ + ‖w‖ * ‖h2‖) (x := ι (O.neg h1i)) hu hu1 m12 n21 (H.add (O.neg h1i) (O.mul w1 h2i)) (hsub _ (O.mul w2 h2r)) (by rwa [H.neg, abs_neg, abs_neg])
      refine le_trans (le_of_eq ?_) this
      rw [← abs_neg]
      congr 1
      simp [C, toC, FOps.unpk, h1d, h2d, wre, wim, H.neg]; ring

end Rnd
end WD
