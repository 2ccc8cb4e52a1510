import Verif.Proofs.FftTw
import Verif.Proofs.FftTabA
import Verif.Proofs.FftTabB
import Verif.Proofs.FftTabC
import Verif.Proofs.FftTabD
/-
  The error of the FFT multiplication in `double` (53 bits, ties to even) up to 16384 points.
-/
namespace WD
open Finset Complex
namespace KInt

section
variable {F FL : Flt} (hp : F.p = 53) (hF : F.rnd = roundEven 53) (hFL : FL = F ∨ 64 ≤ FL.p)
include hp hF hFL

/-- The factors from the tables; the bound is h hundredths of the unit roundoff. -/
theorem tw_tab {k : ℕ} (h1 : 3 ≤ k) (h2 : k ≤ 14) {wr wi c s : ℤ} (P : ParOk k wr wi c s) {bd B h : ℕ} (hB : bd ≤ B ^ 2) (hb : 100 * B ≤ h * 2 ^ 67) {N : ℕ}
    {st : St} (hN : N ≤ 4096) (hr : run wr wi c s bd N 73786976294838206464 0 1329227995784915872903807060280344576 0 = some st) (j : ℕ) (hj : j < N) :
    ‖Rnd.C (fun q : ℚ => (q : ℝ)) ((fltOps F FL).tw true (2 ^ k) j) - rootU true (2 ^ k) ^ j‖ ≤ ((h : ℝ) + 1) / 100 / 2 ^ 53 := by
  refine le_trans (tw_run hp hF hFL h1 h2 P hB N 0 _ _ _ _ st hr ?_ ?_ (by omega) j (by omega) (by omega)) ?_
  · show ((1 : ℚ), (0 : ℚ)) = _
    norm_num
  · have : (⟨((1329227995784915872903807060280344576 : ℤ) : ℝ) / 2 ^ 120, ((0 : ℤ) : ℝ) / 2 ^ 120⟩ : ℂ) = 1 := by
      apply Complex.ext <;> norm_num
    rw [this]; simp
  · have : (100:ℝ) * B ≤ h * 2 ^ 67 := by exact_mod_cast hb
    rw [div_add_div _ _ (by positivity) (by positivity), div_div, div_le_div_iff₀ (by positivity) (by positivity)]
    norm_num at this ⊢
    nlinarith

theorem tw8 (j : ℕ) (hj : j < 4) : ‖Rnd.C (fun q : ℚ => (q : ℝ)) ((fltOps F FL).tw true (2 ^ 3) j) - rootU true (2 ^ 3) ^ j‖ ≤ ((213 : ℕ) + 1) / 100 / 2 ^ 53 :=
  tw_tab hp hF hFL (k := 3) (by norm_num) (by norm_num) (wr := (-362584242804346847550767104)) (wi := 875355796481033496067833856) (c := 939906129562517623222788173740722879) (s := 939906129562517623222788173740722879) (by decide +kernel) (B := 314332519016010759536) (h := 213)
    (by norm_num) (by norm_num) (by norm_num) tab8 j hj

theorem tw16 (j : ℕ) (hj : j < 8) : ‖Rnd.C (fun q : ℚ => (q : ℝ)) ((fltOps F FL).tw true (2 ^ 4) j) - rootU true (2 ^ 4) ^ j‖ ≤ ((165 : ℕ) + 1) / 100 / 2 ^ 53 :=
  tw_tab hp hF hFL (k := 4) (by norm_num) (by norm_num) (wr := (-94232574513399189779513344)) (wi := 473739143295903409821974528) (c := 1228046539346682719437376742195207522) (s := 508673531822740685630297997568868078) (by decide +kernel) (B := 243497021772966081331) (h := 165)
    (by norm_num) (by norm_num) (by norm_num) tab16 j hj

theorem tw32 (j : ℕ) (hj : j < 16) : ‖Rnd.C (fun q : ℚ => (q : ℝ)) ((fltOps F FL).tw true (2 ^ 5) j) - rootU true (2 ^ 5) ^ j‖ ≤ ((72 : ℕ) + 1) / 100 / 2 ^ 53 :=
  tw_tab hp hF hFL (k := 5) (by norm_num) (by norm_num) (wr := (-23786670732482465528545280)) (wi := 241510120900843326148706304) (c := 1303687252565732735913851516381637234) (s := 259319517730532025535172787767079734) (by decide +kernel) (B := 106253245864567017308) (h := 72)
    (by norm_num) (by norm_num) (by norm_num) tab32 j hj

theorem tw64 (j : ℕ) (hj : j < 32) : ‖Rnd.C (fun q : ℚ => (q : ℝ)) ((fltOps F FL).tw true (2 ^ 6) j) - rootU true (2 ^ 6) ^ j‖ ≤ ((204 : ℕ) + 1) / 100 / 2 ^ 53 :=
  tw_tab hp hF hFL (k := 6) (by norm_num) (by norm_num) (wr := (-5961019652590430469488640)) (wi := 121339342550216884961148928) (c := 1322827399670243577784911761655670506) (s := 130287126992830687481049581775058926) (by decide +kernel) (B := 301050863282939882373) (h := 204)
    (by norm_num) (by norm_num) (by norm_num) tab64 j hj

theorem tw128 (j : ℕ) (hj : j < 64) : ‖Rnd.C (fun q : ℚ => (q : ℝ)) ((fltOps F FL).tw true (2 ^ 7) j) - rootU true (2 ^ 7) ^ j‖ ≤ ((102 : ℕ) + 1) / 100 / 2 ^ 53 :=
  tw_tab hp hF hFL (k := 7) (by norm_num) (by norm_num) (wr := (-1491152992689849284689920)) (wi := 60742838684526102565617664) (c := 1327626882450682015557247551709075781) (s := 65222126404060817041060257472886725) (by decide +kernel) (B := 150525431641469941186) (h := 102)
    (by norm_num) (by norm_num) (by norm_num) tab128 j hj

theorem tw256 (j : ℕ) (hj : j < 128) : ‖Rnd.C (fun q : ℚ => (q : ℝ)) ((fltOps F FL).tw true (2 ^ 8) j) - rootU true (2 ^ 8) ^ j‖ ≤ ((350 : ℕ) + 1) / 100 / 2 ^ 53 :=
  tw_tab hp hF hFL (k := 8) (by norm_num) (by norm_num) (wr := (-372844395052969756721152)) (wi := 30380569401765532895543296) (c := 1328827657164103520532853731409434135) (s := 32620888003610311989478491112336646) (by decide +kernel) (B := 516508834063867445248) (h := 350)
    (by norm_num) (by norm_num) (by norm_num) tab256 j hj

theorem tw512 (j : ℕ) (hj : j < 256) : ‖Rnd.C (fun q : ℚ => (q : ℝ)) ((fltOps F FL).tw true (2 ^ 9) j) - rootU true (2 ^ 9) ^ j‖ ≤ ((739 : ℕ) + 1) / 100 / 2 ^ 53 :=
  tw_tab hp hF hFL (k := 9) (by norm_num) (by norm_num) (wr := (-93214608207523891642368)) (wi := 15191428587516172546605056) (c := 1329127907361475680826626763934244751) (s := 16311672240725359659488398689095291) (by decide +kernel) (B := 1090571509637708691537) (h := 739)
    (by norm_num) (by norm_num) (by norm_num) tab512 j hj

theorem tw1024 (j : ℕ) (hj : j < 512) : ‖Rnd.C (fun q : ℚ => (q : ℝ)) ((fltOps F FL).tw true (2 ^ 10) j) - rootU true (2 ^ 10) ^ j‖ ≤ ((684 : ℕ) + 1) / 100 / 2 ^ 53 :=
  tw_tab hp hF hFL (k := 10) (by norm_num) (by norm_num) (wr := (-23303871396277638922240)) (wi := 7595857283624852879572992) (c := 1329202973443536572322978140960776172) (s := 8155989654563034982999647902476720) (by decide +kernel) (B := 1009405835713386664427) (h := 684)
    (by norm_num) (by norm_num) (by norm_num) tab1024 j hj

theorem tw2048 (j : ℕ) (hj : j < 1024) : ‖Rnd.C (fun q : ℚ => (q : ℝ)) ((fltOps F FL).tw true (2 ^ 11) j) - rootU true (2 ^ 11) ^ j‖ ≤ ((796 : ℕ) + 1) / 100 / 2 ^ 53 :=
  tw_tab hp hF hFL (k := 11) (by norm_num) (by norm_num) (wr := (-5825981558158720499712)) (wi := 3797946515671948606832640) (c := 1329221740184851025198356259170864314) (s := 4078014019192042851417480083453511) (by decide +kernel) (B := 1174688662613824246906) (h := 796)
    (by norm_num) (by norm_num) (by norm_num) tab2048 j hj

theorem tw4096 (j : ℕ) (hj : j < 2048) : ‖Rnd.C (fun q : ℚ => (q : ℝ)) ((fltOps F FL).tw true (2 ^ 12) j) - rootU true (2 ^ 12) ^ j‖ ≤ ((1692 : ℕ) + 1) / 100 / 2 ^ 53 :=
  tw_tab hp hF hFL (k := 12) (by norm_num) (by norm_num) (wr := (-1456496246358769664000)) (wi := 1898975492072357824036864) (c := 1329226431883979658485002088458441311) (s := 2039009408589070890822242057724035) (by decide +kernel) (B := 2496951277817324906741) (h := 1692)
    (by norm_num) (by norm_num) (by norm_num) tab4096 j hj

theorem tw8192 (j : ℕ) (hj : j < 4096) : ‖Rnd.C (fun q : ℚ => (q : ℝ)) ((fltOps F FL).tw true (2 ^ 13) j) - rootU true (2 ^ 13) ^ j‖ ≤ ((2010 : ℕ) + 1) / 100 / 2 ^ 53 :=
  tw_tab hp hF hFL (k := 13) (by norm_num) (by norm_num) (wr := (-364124115140901273600)) (wi := 949488025315849929752576) (c := 1329227604809624319126415241529909409) (s := 1019505004168798934764675839253091) (by decide +kernel) (B := 2966236447052495899852) (h := 2010)
    (by norm_num) (by norm_num) (by norm_num) tab8192 j hj

theorem tw16384 (j : ℕ) (hj : j < 4096) : ‖Rnd.C (fun q : ℚ => (q : ℝ)) ((fltOps F FL).tw true (2 ^ 14) j) - rootU true (2 ^ 14) ^ j‖ ≤ ((2010 : ℕ) + 1) / 100 / 2 ^ 53 :=
  tw_tab hp hF hFL (k := 14) (by norm_num) (by norm_num) (wr := (-91031032132176134144)) (wi := 474744047567887700852736) (c := 1329227898041089390698401679970836648) (s := 509752539568686538121643339355384) (by decide +kernel) (B := 2966236447052495899852) (h := 2010)
    (by norm_num) (by norm_num) (by norm_num) tab16384 j hj

omit hp hF hFL in
/-- Bounds of the factors, in hundredths of the unit roundoff; entry i for 2·2^i points. -/
def twH (i : ℕ) : ℕ := [0, 0, 213, 165, 72, 204, 102, 350, 739, 684, 796, 1692, 2010].getD i 0

theorem tw_all (i : ℕ) (h2 : 2 ≤ i) (hi : i ≤ 12) (j : ℕ) (hj : j < 2 ^ i) :
    ‖Rnd.C (fun q : ℚ => (q : ℝ)) ((fltOps F FL).tw true (2 * 2 ^ i) j) - rootU true (2 * 2 ^ i) ^ j‖ ≤ ((twH i : ℝ) + 1) / 100 / 2 ^ 53 := by
  rw [← pow_succ']
  have hc : i = 2 ∨ i = 3 ∨ i = 4 ∨ i = 5 ∨ i = 6 ∨ i = 7 ∨ i = 8 ∨ i = 9 ∨ i = 10 ∨ i = 11 ∨ i = 12 := by omega
  rcases hc with rfl | rfl | rfl | rfl | rfl | rfl | rfl | rfl | rfl | rfl | rfl
  · exact tw8 hp hF hFL j (by simpa using hj)
  · exact tw16 hp hF hFL j (by simpa using hj)
  · exact tw32 hp hF hFL j (by simpa using hj)
  · exact tw64 hp hF hFL j (by simpa using hj)
  · exact tw128 hp hF hFL j (by simpa using hj)
  · exact tw256 hp hF hFL j (by simpa using hj)
  · exact tw512 hp hF hFL j (by simpa using hj)
  · exact tw1024 hp hF hFL j (by simpa using hj)
  · exact tw2048 hp hF hFL j (by simpa using hj)
  · exact tw4096 hp hF hFL j (by simpa using hj)
  · exact tw8192 hp hF hFL j (by simpa using hj)

omit hp hFL in
theorem rnd_neg (q : ℚ) : F.rnd (-q) = -F.rnd q := by rw [hF]; exact roundEven_neg 53 q

omit hp hFL in
/-- The backward factors are conjugate. -/
theorem tw_conj (n k : ℕ) : (fltOps F FL).tw false n k = (((fltOps F FL).tw true n k).1, -((fltOps F FL).tw true n k).2) := by
  have hn := rnd_neg hF
  have hwr : (fltOps F FL).wpReal false n = (fltOps F FL).wpReal true n := by
    unfold FOps.wpReal FOps.wpInit
    rw [if_neg (by simp), if_pos rfl]
    show F.rnd (-2 * F.rnd (-_ * -_)) = F.rnd (-2 * F.rnd (_ * _))
    rw [neg_mul_neg]
  have hwi : (fltOps F FL).wpImag false n = -(fltOps F FL).wpImag true n := by
    unfold FOps.wpImag
    rw [if_neg (by simp), if_pos rfl]; rfl
  induction k with
  | zero => show ((1 : ℚ), (0 : ℚ)) = (1, -0); rw [neg_zero]
  | succ k ih =>
    rw [FOps.tw, FOps.tw, ih]
    unfold FOps.twStep
    rw [hwr, hwi]
    generalize (fltOps F FL).tw true n k = x
    generalize (fltOps F FL).wpReal true n = a
    generalize (fltOps F FL).wpImag true n = b
    show (F.rnd (x.1 + F.rnd (F.rnd (x.1 * a) - F.rnd (-x.2 * -b))), F.rnd (-x.2 + F.rnd (F.rnd (-x.2 * a) + F.rnd (x.1 * -b)))) =
      (F.rnd (x.1 + F.rnd (F.rnd (x.1 * a) - F.rnd (x.2 * b))), -F.rnd (x.2 + F.rnd (F.rnd (x.2 * a) + F.rnd (x.1 * b))))
    rw [neg_mul_neg, neg_mul, mul_neg, hn, hn, ← neg_add, hn, ← neg_add, hn]

omit hp hF hFL in
/-- The factors of the real transform are those of the butterflies. -/
theorem rtw_eq_tw (hn0 : ∀ q, F.rnd (-q) = -F.rnd q) (fwd : Bool) (n k : ℕ) : (fltOps F FL).rtw fwd n k = (fltOps F FL).tw fwd n (k + 1) := by
  induction k with
  | zero =>
    have hwr : F.rnd ((fltOps F FL).wpReal fwd n) = (fltOps F FL).wpReal fwd n := F.rnd_eq (F.rep _)
    have hwi : F.rnd ((fltOps F FL).wpImag fwd n) = (fltOps F FL).wpImag fwd n := by
      unfold FOps.wpImag
      split
      · exact F.rnd_eq (F.rep _)
      · show F.rnd (-_) = -_
        rw [hn0]; congr 1; exact F.rnd_eq (F.rep _)
    rw [FOps.rtw, FOps.tw, FOps.tw]
    unfold FOps.rInit FOps.twStep
    generalize (fltOps F FL).wpReal fwd n = a at *
    generalize (fltOps F FL).wpImag fwd n = b at *
    show (F.rnd (1 + a), b) = (F.rnd (1 + F.rnd (F.rnd (1 * a) - F.rnd (0 * b))), F.rnd (0 + F.rnd (F.rnd (0 * a) + F.rnd (1 * b))))
    simp only [one_mul, zero_mul, F.rnd_zero, sub_zero, zero_add, hwr, hwi]
  | succ k ih => rw [FOps.rtw, ih]; rfl

omit hp hFL in
theorem tw_any (fwd : Bool) {n j : ℕ} {t : ℝ} (h : ‖Rnd.C (fun q : ℚ => (q : ℝ)) ((fltOps F FL).tw true n j) - rootU true n ^ j‖ ≤ t) :
    ‖Rnd.C (fun q : ℚ => (q : ℝ)) ((fltOps F FL).tw fwd n j) - rootU fwd n ^ j‖ ≤ t := by
  cases fwd with
  | true => exact h
  | false =>
    rw [tw_conj hF]
    have e : rootU false n = (starRingEnd ℂ) (rootU true n) := by rw [rootU_conj]; rfl
    have e2 : Rnd.C (fun q : ℚ => (q : ℝ)) (((fltOps F FL).tw true n j).1, -((fltOps F FL).tw true n j).2) =
        (starRingEnd ℂ) (Rnd.C (fun q : ℚ => (q : ℝ)) ((fltOps F FL).tw true n j)) := by
      apply Complex.ext <;> simp [Rnd.C, toC]
    rw [e, e2, ← map_pow, ← map_sub, Complex.norm_conj]
    exact h

/-- All factors up to 16384 points. -/
theorem twB_double {m : ℕ} (hm : m ≤ 10) : Rnd.TwB (fltOps F FL) (fun q : ℚ => (q : ℝ)) (fun i => ((twH i : ℝ) + 1) / 100 / 2 ^ 53) (20.11 / 2 ^ 53) m := by
  have hle : ∀ i, twH i ≤ 2010 := by
    intro i
    rcases Nat.lt_or_ge i 13 with h | h
    · have : ∀ i ∈ List.range 13, twH i ≤ 2010 := by decide
      exact this i (List.mem_range.mpr h)
    · unfold twH; rw [getD_ge (by simpa using h)]; omega
  have hleR : ∀ i, ((twH i : ℝ) + 1) / 100 / 2 ^ 53 ≤ 20.11 / 2 ^ 53 := by
    intro i
    apply div_le_div_of_nonneg_right _ (by positivity)
    have : (twH i : ℝ) ≤ 2010 := by exact_mod_cast hle i
    linarith
  have hs : (20.11 : ℝ) / 2 ^ 53 ≤ 1 / 100 := by norm_num
  refine ⟨?_, fun i _ _ => le_trans (hleR i) hs, ?_, hs⟩
  · intro fwd i h2 hi k hk
    exact tw_any hF fwd (tw_all hp hF hFL i h2 (by omega) k hk)
  · intro fwd k hk
    rw [rtw_eq_tw (rnd_neg hF)]
    apply tw_any hF fwd
    rcases Nat.lt_or_ge m 10 with h | h
    · have e : 16 * 2 ^ m = 2 * 2 ^ (m + 3) := by ring
      have e2 : 2 ^ (m + 3) = 8 * 2 ^ m := by ring
      rw [e]
      exact le_trans (tw_all hp hF hFL (m + 3) (by omega) (by omega) (k + 1) (by omega)) (hleR _)
    · have : m = 10 := by omega
      subst this
      have := tw16384 hp hF hFL (k + 1) (by omega)
      rw [show 16 * 2 ^ 10 = 2 ^ 14 by norm_num]
      refine le_trans this ?_
      norm_num

end

theorem eps_step {u E τ e l : ℝ} (hu0 : 0 ≤ u) (hu : u ≤ 1 / 10 ^ 15) (he0 : 0 ≤ e) (he : e ≤ u * E) (hE : E ≤ 1000) (hl0 : 0 ≤ l) (hl : l ≤ u * τ) (hτ : τ ≤ 1000) :
    e + l * (1 + e) ≤ u * (E + τ + 0.001) := by
  have hE0 : u * E ≤ 1 / 10 ^ 12 := by nlinarith
  have h1 : l * e ≤ u * τ * (1 / 10 ^ 12) := mul_le_mul hl (by linarith) he0 (le_trans hl0 hl)
  have h2 : u * τ ≤ u * 1000 := mul_le_mul_of_nonneg_left hτ hu0
  norm_num at *
  nlinarith

/-- The error of the complex transform, in units of the roundoff. -/
noncomputable def epsE : ℕ → ℝ
  | 0 => 52 + (1.001 * ((twH 2 + 1) / 100) + 4.1) + 0.001
  | m + 1 => epsE m + (1.001 * ((twH (m + 3) + 1) / 100) + 4.1) + 0.001

theorem epsE_mono (m : ℕ) : epsE m ≤ epsE (m + 1) := by
  rw [epsE]; have : (0:ℝ) ≤ twH (m + 3) := Nat.cast_nonneg _
  linarith

theorem epsE_ten : epsE 10 ≤ 168 := by
  simp only [epsE, twH]
  norm_num

theorem epsE_le {m : ℕ} (hm : m ≤ 10) : epsE m ≤ 168 :=
  le_trans (monotone_nat_of_le_succ epsE_mono hm) epsE_ten

theorem eps_double {m : ℕ} (hm : m ≤ 10) : 0 ≤ Rnd.eps (1 / 2 ^ 53) (fun i => ((twH i : ℝ) + 1) / 100 / 2 ^ 53) m ∧
    Rnd.eps (1 / 2 ^ 53) (fun i => ((twH i : ℝ) + 1) / 100 / 2 ^ 53) m ≤ 1 / 2 ^ 53 * epsE m := by
  have hlv : ∀ i, 0 ≤ Rnd.lvl (1 / 2 ^ 53) (((twH i : ℝ) + 1) / 100 / 2 ^ 53) ∧
      Rnd.lvl (1 / 2 ^ 53) (((twH i : ℝ) + 1) / 100 / 2 ^ 53) ≤ 1 / 2 ^ 53 * (1.001 * ((twH i + 1) / 100) + 4.1) := by
    intro i
    unfold Rnd.lvl
    exact ⟨by positivity, le_of_eq (by ring)⟩
  have hτ : ∀ i, i ≤ 12 → 1.001 * (((twH i : ℝ) + 1) / 100) + 4.1 ≤ 1000 := by
    intro i hi
    have : ∀ i ∈ List.range 13, twH i ≤ 2010 := by decide
    have : (twH i : ℝ) ≤ 2010 := by exact_mod_cast this i (List.mem_range.mpr (by omega))
    linarith
  induction m with
  | zero =>
    rw [Rnd.eps, epsE]
    obtain ⟨l0, l1⟩ := hlv 2
    refine ⟨by positivity, ?_⟩
    exact eps_step (by positivity) (by norm_num) (by positivity) (by norm_num) (by norm_num) l0 l1 (hτ 2 (by norm_num))
  | succ m ih =>
    obtain ⟨i0, i1⟩ := ih (by omega)
    rw [Rnd.eps, epsE]
    obtain ⟨l0, l1⟩ := hlv (m + 3)
    refine ⟨by positivity, ?_⟩
    exact eps_step (by positivity) (by norm_num) i0 i1 (le_trans (epsE_le (by omega)) (by norm_num)) l0 l1 (hτ _ (by omega))

/-- The relative error of a value after the inverse transform: 900 units of roundoff. -/
theorem fin_double {m : ℕ} (hm : m ≤ 10) : Rnd.fin (1 / 2 ^ 53) (fun i => ((twH i : ℝ) + 1) / 100 / 2 ^ 53) (20.11 / 2 ^ 53) m ≤ 900 / 2 ^ 53 := by
  obtain ⟨e0, e1⟩ := eps_double hm
  have e2 := epsE_le hm
  have hs : Real.sqrt 2 ≤ 1.4143 := by rw [Real.sqrt_le_left (by norm_num)]; norm_num
  have hs0 : 0 ≤ Real.sqrt 2 := Real.sqrt_nonneg _
  unfold Rnd.fin Rnd.phi Rnd.theta Rnd.sig
  generalize Rnd.eps (1 / 2 ^ 53) (fun i => ((twH i : ℝ) + 1) / 100 / 2 ^ 53) m = ε at *
  generalize Real.sqrt 2 = s at *
  have e3 : ε ≤ 168 / 2 ^ 53 := by
    refine le_trans e1 ?_
    rw [one_div_mul_eq_div]
    exact div_le_div_of_nonneg_right e2 (by positivity)
  have hu : (1 : ℝ) / 2 ^ 53 = 1 / 9007199254740992 := by norm_num
  have t : (20.11 : ℝ) / 2 ^ 53 + 6.4 * (1 / 2 ^ 53) = 26.51 / 9007199254740992 := by norm_num
  rw [t]
  have e4 : ε ≤ 168 / 9007199254740992 := by norm_num at e3 ⊢; exact e3
  set σ : ℝ := 26.51 / 9007199254740992 with hσ
  set θ : ℝ := σ * (1 + ε) + ε with hθ
  have t1 : θ ≤ 194.6 / 9007199254740992 := by rw [hθ, hσ]; norm_num at *; linarith
  have t0 : 0 ≤ θ := by rw [hθ, hσ]; positivity
  rw [hu]
  set φ : ℝ := 3 * (1 / 9007199254740992) * (1 + θ) ^ 2 + θ * (1 + θ) + θ with hφ
  have p1 : φ ≤ 393 / 9007199254740992 := by
    have q : θ ^ 2 ≤ θ * (194.6 / 9007199254740992) := by rw [pow_two]; exact mul_le_mul_of_nonneg_left t1 t0
    rw [hφ]
    norm_num at *
    nlinarith
  have p0 : 0 ≤ φ := by rw [hφ]; positivity
  have b1 : ε * (s + 2 * σ) + 2 * σ ≤ 292 / 9007199254740992 := by
    have : ε * (s + 2 * σ) ≤ 168 / 9007199254740992 * 1.4144 := mul_le_mul e4 (by rw [hσ]; norm_num at *; linarith) (by rw [hσ]; positivity) (by norm_num)
    rw [hσ] at *
    norm_num at *
    linarith
  have b0 : 0 ≤ ε * (s + 2 * σ) + 2 * σ := by rw [hσ]; positivity
  have b2 : (ε * (s + 2 * σ) + 2 * σ) * (1 + φ) ≤ 292 / 9007199254740992 * 1.001 :=
    mul_le_mul b1 (by norm_num at *; linarith) (by linarith) (by norm_num)
  have b3 : s * φ ≤ 1.4143 * (393 / 9007199254740992) := mul_le_mul hs p1 p0 (by norm_num)
  have b4 : (ε * (s + 2 * σ) + 2 * σ) * (1 + φ) + s * φ ≤ 860 / 9007199254740992 := by norm_num at *; linarith
  have b5 : (1 + 1 / 9007199254740992) * ((ε * (s + 2 * σ) + 2 * σ) * (1 + φ) + s * φ) ≤ (1 + 1 / 9007199254740992) * (860 / 9007199254740992) :=
    mul_le_mul_of_nonneg_left b4 (by norm_num)
  norm_num at *
  linarith

end KInt
end WD
