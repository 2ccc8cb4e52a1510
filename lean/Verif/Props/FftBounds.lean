import Verif.Proofs.FftConf
import Verif.Proofs.ThreadWp
import Verif.Model.FftTail
import Verif.Props.FftDouble
/-
  C68: the FFT multiplication and its memory.
-/
namespace WD
open DW

/-- C68. The transforms, for any arithmetic and every size: on an array of 16·2^m numbers the forward transform, the inverse transform and the product in transform
    space change no cell behind the array, and what they store does not depend on anything behind it. -/
theorem fft_stays_in_buffer {K : Type} (O : FOps K) (m : ℕ) :
    Confined (16 * 2 ^ m) (O.rfftF m) ∧ Confined (16 * 2 ^ m) (O.rfftB m) ∧
    (∀ b, Confined (16 * 2 ^ m) (fun a => O.pointwise (16 * 2 ^ m) a b)) ∧
    (∀ a b b' : ℕ → K, (∀ i, i < 16 * 2 ^ m → b i = b' i) → ∀ i, i < 16 * 2 ^ m → O.pointwise (16 * 2 ^ m) a b i = O.pointwise (16 * 2 ^ m) a b' i) := by
  have e : 16 * 2 ^ m = 2 * (8 * 2 ^ m) := by ring
  refine ⟨O.rfftF_confined m, O.rfftB_confined m, fun b => ?_, fun a b b' h i hi => ?_⟩
  · rw [e]
    exact ⟨fun d i hi => O.pointwise_out _ (by positivity) d b i hi, fun d d' h i hi => O.pointwise_congr _ h (fun _ _ => rfl) i hi⟩
  · rw [e] at h hi ⊢
    exact O.pointwise_congr _ (fun _ _ => rfl) h i hi

/-- C68. The two buffers of n_fft numbers that the multiplication of p limbs allocates are sufficient: n_fft is a power of two of the form 16·2^m, the 2p half-limbs
    and the p limbs of the result fit, the statically allocated buffers (sized for N limbs) are large enough for every precision p ≤ N, and the product does
    not depend on what memory contains behind the buffers. -/
theorem fft_buffers_suffice (L : Limb) (F FL : Flt) (p N : ℕ) (hp : p ≤ N) (hN : N ≤ 2 ^ 29) (u v : List ℕ) :
    (∃ m, nFft p = 16 * 2 ^ m) ∧ 2 * p ≤ nFft p ∧ nFft p ≤ nFft N ∧ (mulLoopFft L F FL u v p).length = p ∧
    ∀ a b : ℕ → ℚ, (∀ i, i < nFft p → a i = (fltOps F FL).fillHalf L p u i) → (∀ i, i < nFft p → b i = (fltOps F FL).fillHalf L p v i) →
      fftRelease L F (fun j => (fltOps F FL).div ((fltOps F FL).fftConv (Nat.log2 (nFft p / 16)) a b j) ((fltOps F FL).nat (nFft p / 2))) p = mulLoopFft L F FL u v p := by
  obtain ⟨e, g1, -⟩ := nFft_spec (le_trans hp hN)
  have hlen : ∀ (n : ℕ → ℕ) (k carry : ℕ), (releaseLoop L n k carry).length = k := by
    intro n k
    induction k with
    | zero => intro _; rfl
    | succ k ih => intro carry; rw [releaseLoop, List.length_append, ih]; rfl
  refine ⟨⟨_, e⟩, by omega, ?_, hlen _ _ _, fun a b ha hb => ?_⟩
  · obtain ⟨e', g1', -⟩ := nFft_spec hN
    obtain ⟨-, -, g2⟩ := nFft_spec (le_trans hp hN)
    have := g2 (Nat.log2 (nFft N / 16) + 2) ?_ ?_
    · rw [e']; refine le_trans this (le_of_eq ?_); rw [pow_add]; ring
    · by_contra hc
      obtain ⟨-, ⟨h8, -⟩, -⟩ := fftLen_least N (by omega)
      have h32 : 32 ≤ nFft N := by
        unfold nFft
        have h3 := (fftLen_least N (by omega)).2.2 (2 ^ 29) ⟨by norm_num, 29, rfl⟩ hN
        rw [Nat.mod_eq_of_lt (by omega)]; omega
      have : Nat.log2 (nFft N / 16) = 0 := by omega
      rw [this] at e'; omega
    · rw [pow_add]; omega
  · unfold mulLoopFft fftRelease
    refine releaseLoop_congr L p 0 (fun j hj => ?_)
    unfold FOps.xaj
    rw [← e]
    have hcv : (fltOps F FL).fftConv (Nat.log2 (nFft p / 16)) a b j =
        (fltOps F FL).fftConv (Nat.log2 (nFft p / 16)) ((fltOps F FL).fillHalf L p u) ((fltOps F FL).fillHalf L p v) j := by
      generalize hm : Nat.log2 (nFft p / 16) = m at *
      obtain ⟨s1, s2, -, -⟩ := fft_stays_in_buffer (fltOps F FL) m
      unfold FOps.fftConv
      refine s2.2 _ _ (fun i hi => ?_) j (by omega)
      have e2 : 16 * 2 ^ m = 2 * (8 * 2 ^ m) := by ring
      rw [e2] at hi ⊢
      refine (fltOps F FL).pointwise_congr _ (fun i hi => s1.2 _ _ (fun i hi => ha i (by omega)) i (by omega)) (fun i hi => s1.2 _ _ (fun i hi => hb i (by omega)) i (by omega)) i hi
    beta_reduce
    rw [hcv]

/-- C68. The multiplication of p limbs reads no limb of the operands behind the first p: operands with the same first p limbs give the same product. -/
theorem fft_reads_first_limbs (L : Limb) (F FL : Flt) (p : ℕ) (u u' v v' : List ℕ) (hu : u.take p = u'.take p) (hv : v.take p = v'.take p) :
    mulLoopFft L F FL u v p = mulLoopFft L F FL u' v' p := by
  have key : ∀ x y : List ℕ, x.take p = y.take p → (fltOps F FL).fillHalf L p x = (fltOps F FL).fillHalf L p y := by
    intro x y h
    funext i
    unfold FOps.fillHalf
    by_cases hi : i < 2 * p
    · have g : ∀ z : List ℕ, z.getD (i / 2) 0 = (z.take p).getD (i / 2) 0 := fun z => by
        rw [List.getD_eq_getElem?_getD, List.getD_eq_getElem?_getD, List.getElem?_take_of_lt (by omega)]
      rw [if_pos hi, if_pos hi, g x, g y, h]
    · rw [if_neg hi, if_neg hi]
  unfold mulLoopFft FOps.xaj
  rw [key u u' hu, key v v' hv]

example : ([1, 2, 3] : List ℕ).take 2 = [1, 2, 4].take 2 ∧ ([1, 2, 3] : List ℕ) ≠ [1, 2, 4] := by decide

/-- C68. The statically allocated buffers (`WIDE_DECIMAL_DISABLE_DYNAMIC_MEMORY_ALLOCATION`, decwide_t.h:2627-2630: 2·112 limbs, A029750(8·1792) limbs, A000079(4N) numbers) are
    large enough for every product: 2p limbs below 113 limbs, 8 times the padded length below 1793, n_fft numbers from there on. -/
theorem static_pools_suffice (p : ℕ) : (p < 113 → 2 * p ≤ (113 - 1) * 2) ∧ (p < 1793 → 8 * karaLen p ≤ karaLen ((1793 - 1) * 8)) ∧
    (∀ N, p ≤ N → 1793 ≤ N → N ≤ 2 ^ 29 → nFft p ≤ fftLen (N * 4)) := by
  refine ⟨fun h => by omega, fun h => ?_, fun N hp h1 hN => ?_⟩
  · have e : karaLen ((1793 - 1) * 8) = 14336 := by decide +kernel
    have := (karaLen_least p (by omega)).2.2.1 1792 ⟨by norm_num, 8, 7, by norm_num, by norm_num⟩ (by omega)
    omega
  · obtain ⟨k1, ⟨k8, k, hk⟩, -⟩ := fftLen_least (N * 4) (by omega)
    obtain ⟨j, rfl⟩ : ∃ j, k = j + 2 := ⟨k - 2, by
      have : 2 ≤ k := by
        by_contra hc
        have : 2 ^ k ≤ 2 ^ 1 := Nat.pow_le_pow_right (by norm_num) (by omega)
        omega
      omega⟩
    rw [pow_add] at hk
    have h3 : 3 ≤ j := by
      by_contra hc
      have : 2 ^ j ≤ 2 ^ 2 := Nat.pow_le_pow_right (by norm_num) (by omega)
      omega
    have := (nFft_spec (le_trans hp hN)).2.2 j h3 (by omega)
    omega

/-- The largest schoolbook, Karatsuba and (2503 limbs) FFT products. -/
example : 2 * 112 ≤ (113 - 1) * 2 ∧ 8 * karaLen 1792 ≤ karaLen ((1793 - 1) * 8) ∧ nFft 2000 ≤ fftLen (2503 * 4) :=
  ⟨(static_pools_suffice 112).1 (by norm_num), (static_pools_suffice 1792).2.1 (by norm_num), (static_pools_suffice 2000).2.2 2503 (by norm_num) (by norm_num) (by norm_num)⟩

/-- A product of 2000 limbs uses buffers of 8192 numbers. -/
example : nFft 2000 = 8192 ∧ 2 * 2000 ≤ nFft 2000 := by
  have h : nFft 2000 = 8192 := by decide +kernel
  omega

namespace Thr
open Prog Loc

/-- The shift at the end needs no memory outside the object when the precision is reduced. -/
theorem fft_shift_in_bounds_partial (c : Cfg) (u p : ℕ) (hp : p < c.N) (m : Mem) :
    ∃ m', exec (within u c.N) (within u c.N) (fftTailP c u p) m = some m' := by
  have hN : 0 < c.N := by omega
  unfold fftTailP
  have key : Wp (within u c.N) (within u c.N) (fun k => load (limb u 0) fun u0 =>
    if u0 ≠ 0 then load (exp u) fun e => stor (exp u) (e + c.ed) k
    else copyF u 1 u 0 (min p c.N) (stor (limb u (c.N - 1)) 0 k)) m (fun _ => True) := by
    refine Wp.load (by simp [within, hN]) (Wp.ite (fun _ => ?_) (fun _ => ?_))
    · exact Wp.load (by simp [within]) (Wp.stor (by simp [within]) (Wp.fin trivial))
    · refine Wp.copyF _ _ _ _ (fun _ => by omega) (fun i hi => ?_) (fun i hi => ?_) ?_
      · simp only [within, beq_self_eq_true, Bool.true_and, decide_eq_true_eq]; omega
      · simp only [within, beq_self_eq_true, Bool.true_and, decide_eq_true_eq]; omega
      · refine Wp.stor ?_ (Wp.fin trivial)
        simp only [within, beq_self_eq_true, Bool.true_and, decide_eq_true_eq]; omega
  obtain ⟨m', h, -⟩ := key
  exact ⟨m', by have := h (within u c.N) (within u c.N) done (fun _ h => h) (fun _ h => h); simpa [exec] using this⟩

/-- A copy fails when a cell it reads is out of bounds. -/
theorem copyF_none {R W : Loc → Bool} {src dst : ℕ} {k : Prog} : ∀ (n s d : ℕ) (m : Mem), (∃ i, i < n ∧ R (limb src (s + i)) = false) →
    exec R W (copyF src s dst d n k) m = none
  | 0, _, _, _, h => by obtain ⟨i, h, -⟩ := h; omega
  | n + 1, s, d, m, ⟨i, hi, hR⟩ => by
    rw [copyF, exec]
    split
    · next h0 =>
      rw [exec]
      split
      · refine copyF_none n (s + 1) (d + 1) _ ⟨i - 1, ?_, ?_⟩
        · have : i ≠ 0 := by rintro rfl; rw [Nat.add_zero] at hR; rw [hR] at h0; exact absurd h0 (by simp)
          omega
        · have : i ≠ 0 := by rintro rfl; rw [Nat.add_zero] at hR; rw [hR] at h0; exact absurd h0 (by simp)
          rw [show s + 1 + (i - 1) = s + i by omega]; exact hR
      · rfl
    · rfl

/-- C68, finding F6. At full precision, when the leading limb of the product is zero, the shift by one limb reads the cell behind the array of N limbs (undefined
    behaviour). If that cell may be read, whatever it contains, the result is the product shifted by one limb with a zero at the end: the value read is
    overwritten. -/
theorem fft_shift_out_of_bounds (c : Cfg) (u : ℕ) (m : Mem) (hN : 0 < c.N) (h0 : m (limb u 0) = 0) :
    exec (within u c.N) (within u c.N) (fftTailP c u c.N) m = none ∧
    ∃ m', exec (within u (c.N + 1)) (within u c.N) (fftTailP c u c.N) m = some m' ∧ limbsAt m' u c.N = (limbsAt m u c.N).drop 1 ++ [0] := by
  constructor
  · unfold fftTailP
    rw [exec]
    split
    · rw [if_neg (by rw [h0]; simp), Nat.min_self]
      refine copyF_none _ _ _ _ ⟨c.N - 1, by omega, ?_⟩
      simp only [within, beq_self_eq_true, Bool.true_and, decide_eq_false_iff_not]; omega
    · rfl
  · have key : Wp (within u (c.N + 1)) (within u c.N) (fun k => load (limb u 0) fun u0 =>
      if u0 ≠ 0 then load (exp u) fun e => stor (exp u) (e + c.ed) k
      else copyF u 1 u 0 (min c.N c.N) (stor (limb u (c.N - 1)) 0 k)) m (fun m' => limbsAt m' u c.N = (limbsAt m u c.N).drop 1 ++ [0]) := by
      refine Wp.load (by simp [within]) ?_
      rw [h0, Nat.min_self]
      show Wp _ _ (fun k => copyF u 1 u 0 c.N (stor (limb u (c.N - 1)) 0 k)) m _
      refine Wp.copyF _ _ _ _ (fun _ => by omega) (fun i hi => ?_) (fun i hi => ?_) ?_
      · simp only [within, beq_self_eq_true, Bool.true_and, decide_eq_true_eq]; omega
      · simp only [within, beq_self_eq_true, Bool.true_and, decide_eq_true_eq]; omega
      · refine Wp.stor ?_ (Wp.fin ?_)
        · simp only [within, beq_self_eq_true, Bool.true_and, decide_eq_true_eq]; omega
        · refine List.ext_getElem ?_ (fun i h1 h2 => ?_)
          · simp only [limbsAt, List.length_map, List.length_range, List.length_append, List.length_drop, List.length_singleton]; omega
          · simp only [limbsAt, List.length_map, List.length_range] at h1
            by_cases hi : i = c.N - 1
            · rw [List.getElem_append_right (by simp [limbsAt]; omega)]
              subst hi
              simp [limbsAt, Mem.set]
            · rw [List.getElem_append_left (by simp [limbsAt]; omega)]
              simp only [limbsAt, List.getElem_map, List.getElem_range, List.getElem_drop, Mem.set, limb.injEq, true_and, if_neg hi, setR]
              rw [if_pos (by omega)]
              congr 3
    obtain ⟨m', h, hm'⟩ := key
    exact ⟨m', h (within u (c.N + 1)) (within u c.N) done (fun _ h => h) (fun _ h => h), hm'⟩

/-- C68, finding F6: the out-of-bounds read happens in the default build. With transforms in `double`, 1793 to 4096 limbs, every product of two mantissas below B^(2N-1)
    (for instance all x, y with leading limbs x₀, y₀ such that (x₀+1)(y₀+1) ≤ B: 2·3, 5·5, …) leaves a zero leading limb, and the shift reads behind the array. -/
theorem fft_overread_reached (c : Cfg) (F FL : Flt) (hp : F.p = 53) (hF : F.rnd = roundEven 53) (hFL : FL = F ∨ 64 ≤ FL.p) (hN : 1793 ≤ c.N) (hN2 : c.N ≤ 4096)
    (x y : List ℕ) (hx : x.length = c.N) (hy : y.length = c.N) (hxv : ValidLimbs c.B x) (hyv : ValidLimbs c.B y)
    (hxy : limbsVal c.B x * limbsVal c.B y < c.B ^ (2 * c.N - 1)) (u : ℕ) (m : Mem) (hm : ∀ i, i < c.N → m (limb u i) = ((mulLoopFft c.L F FL x y c.N).getD i 0 : ℕ)) :
    exec (within u c.N) (within u c.N) (fftTailP c u c.N) m = none := by
  have hL : 8 * c.N * c.L.mask ≤ 2 ^ 53 := by
    have : c.L.mask ≤ 10 ^ 8 := by cases c.L <;> decide
    have := Nat.mul_le_mul_left (8 * c.N) this
    omega
  obtain ⟨l1, l2, l3, -⟩ := fft_release_partial c.L F _ c.N x y (by omega) hx hy hxv hyv (fun j hj =>
    fft_double_accurate_partial c.L F FL hp hF hFL c.N (by omega) hN2 x y hx hy hxv hyv j
      (by have := (nFft_spec (p := c.N) (le_trans hN2 (by norm_num))).2.1; omega)) (by rw [hp]; exact hL) (le_trans hL (by norm_num))
  refine (fft_shift_out_of_bounds c u m (by omega) ?_).1
  rw [hm 0 (by omega)]
  change (mulLoopFft c.L F FL x y c.N).length = c.N at l1
  change limbsVal c.L.mask (mulLoopFft c.L F FL x y c.N) * c.L.mask ^ c.N ≤ _ at l3
  cases hr : mulLoopFft c.L F FL x y c.N with
  | nil => rfl
  | cons z zs =>
    rw [hr] at l1 l3
    simp only [List.length_cons] at l1
    show ((z : ℕ) : ℤ) = 0
    by_contra hz
    have hz1 : 1 ≤ z := by omega
    have h1 : c.B ^ (c.N - 1) ≤ limbsVal c.L.mask (z :: zs) := by
      rw [limbsVal_cons, show zs.length = c.N - 1 by omega]
      exact le_trans (Nat.le_mul_of_pos_left _ hz1) (Nat.le_add_right _ _)
    have h2 := lt_of_le_of_lt (le_trans (Nat.mul_le_mul_right (c.L.mask ^ c.N) h1) l3) hxy
    change c.B ^ (c.N - 1) * c.B ^ c.N < _ at h2
    rw [← pow_add, show c.N - 1 + c.N = 2 * c.N - 1 by omega] at h2
    exact lt_irrefl _ h2

/-- 2·3 with the default types and 20000 digits (2503 limbs). -/
example : let c := fltFft .u32 20000 (2 ^ 59) exDoubleE exLongDouble
    let x := 2 :: List.replicate 2502 0
    let y := 3 :: List.replicate 2502 0
    exec (within 0 c.N) (within 0 c.N) (fftTailP c 0 c.N) (fun l => match l with
      | limb _ i => ((mulLoopFft .u32 exDoubleE exLongDouble x y c.N).getD i 0 : ℕ)
      | _ => 0) = none := by
  intro c x y
  have hN : c.N = 2503 := by decide
  have hv : ∀ z : ℕ, z ≤ 3 → ValidLimbs c.B (z :: List.replicate 2502 0) := fun z hz d hd => by
    have hB : c.B = 10 ^ 8 := rfl
    rcases List.mem_cons.mp hd with rfl | h
    · omega
    · rw [List.eq_of_mem_replicate h]; omega
  have hl : ∀ z : ℕ, limbsVal c.B (z :: List.replicate 2502 0) = z * c.B ^ 2502 := fun z => by
    have h0 : ∀ n, limbsVal c.B (List.replicate n 0) = 0 := by
      intro n
      induction n with
      | zero => rfl
      | succ n ih => rw [List.replicate_succ, limbsVal_cons, ih]; simp
    rw [limbsVal_cons, List.length_replicate, h0, Nat.add_zero]
  refine fft_overread_reached c exDoubleE exLongDouble rfl rfl (Or.inr (le_refl _)) (by omega) (by omega) x y (by rw [hN]; exact congrArg (· + 1) (List.length_replicate ..)) (by rw [hN]; exact congrArg (· + 1) (List.length_replicate ..))
    (hv 2 (by norm_num)) (hv 3 (by norm_num)) ?_ 0 _ (fun i _ => rfl)
  rw [hl, hl, hN, show 2 * c.B ^ 2502 * (3 * c.B ^ 2502) = 6 * c.B ^ (2502 + 2502) by rw [pow_add]; ring, show 2 * 2503 - 1 = 2502 + 2502 + 1 by norm_num, pow_succ c.B (2502 + 2502)]
  have hB : c.B = 10 ^ 8 := rfl
  have hpos : 0 < c.B ^ (2502 + 2502) := Nat.pow_pos (by omega)
  generalize 2502 + 2502 = k at *
  generalize c.B ^ k = q at *
  rw [hB]; omega

end Thr
end WD
