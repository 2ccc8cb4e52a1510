import Verif.Proofs.RoundEven
/-
  Rounding to 53 bits in integers, written so that the kernel evaluates it step by step (`fN`, `fI` replace a number by its value).
  Used to compute the factors of the FFT in `double`.
-/
namespace WD
namespace KInt

def fN {α : Type} (n : ℕ) (f : ℕ → α) : α := match n with | 0 => f 0 | k + 1 => f (Nat.succ k)
def fI {α : Type} (x : ℤ) (f : ℤ → α) : α := match x with | .ofNat n => fN n fun n => f (.ofNat n) | .negSucc n => fN n fun n => f (.negSucc n)

theorem fN_eq {α : Type} (n : ℕ) (f : ℕ → α) : fN n f = f n := by cases n <;> rfl
theorem fI_eq {α : Type} (x : ℤ) (f : ℤ → α) : fI x f = f x := by
  cases x with
  | ofNat n => exact fN_eq n fun n => f (.ofNat n)
  | negSucc n => exact fN_eq n fun n => f (.negSucc n)

/-- The number of bits, by halving the interval. -/
def lg : ℕ → ℕ → ℕ → ℕ
  | 0, _, acc => acc
  | k + 1, a, acc => match Nat.ble (2 ^ (2 ^ k)) a with
    | true => fN (a >>> (2 ^ k)) fun a => fN (acc + 2 ^ k) fun acc => lg k a acc
    | false => lg k a acc

/-- a rounded to 53 bits is m·t; `e` if the number of bits was not found. -/
def rN {α : Type} (a : ℕ) (e : α) (k : ℕ → ℕ → α) : α :=
  fN (lg 8 a 0) fun l =>
  match Nat.ble (2 ^ l) a && Nat.blt a (2 ^ (l + 1)) with
  | false => match Nat.beq a 0 with | true => k 0 0 | false => e
  | true =>
    match Nat.ble 53 l with
    | false => k a 1
    | true =>
      fN (2 ^ (l - 52)) fun t =>
      fN (a / t) fun f =>
      match Nat.blt (2 * (a % t)) t with
      | true => k f t
      | false => match Nat.blt t (2 * (a % t)) with
        | true => fN (f + 1) fun f => k f t
        | false => fN (f + f % 2) fun f => k f t

/-- x rounded to 53 bits. -/
def rI {α : Type} (x : ℤ) (e : α) (f : ℤ → α) : α := match x with
  | .ofNat a => rN a e fun m t => f (.ofNat (m * t))
  | .negSucc a => rN (Nat.succ a) e fun m t => f (Int.negOfNat (m * t))

/-- x / n if it is an integer. -/
def dv {α : Type} (x : ℤ) (n : ℕ) (e : α) (f : ℤ → α) : α := match Nat.beq (x.natAbs % n) 0 with | true => fI (x / n) f | false => e

theorem log_scaled {a l : ℕ} (J : ℕ) (h1 : 2 ^ l ≤ a) (h2 : a < 2 ^ (l + 1)) : Int.log 2 |(a : ℚ) / 2 ^ J| = (l : ℤ) - J := by
  have a0 : 0 < a := lt_of_lt_of_le (by positivity) h1
  have hq : (0:ℚ) < (a : ℚ) / 2 ^ J := by positivity
  obtain ⟨l1, l2⟩ := log_bounds hq.ne'
  rw [abs_of_pos hq] at l1 l2 ⊢
  have a1 : (2 : ℚ) ^ ((l : ℤ) - J) ≤ a / 2 ^ J := by
    rw [zpow_sub₀ (by norm_num), zpow_natCast, zpow_natCast]
    exact div_le_div_of_nonneg_right (by exact_mod_cast h1) (by positivity)
  have a2 : (a : ℚ) / 2 ^ J < (2 : ℚ) ^ ((l : ℤ) - J + 1) := by
    rw [show (l : ℤ) - J + 1 = ((l + 1 : ℕ) : ℤ) - J by push_cast; ring, zpow_sub₀ (by norm_num), zpow_natCast, zpow_natCast]
    exact div_lt_div_of_pos_right (by exact_mod_cast h2) (by positivity)
  have b1 := (zpow_lt_zpow_iff_right₀ (by norm_num : (1 : ℚ) < 2)).mp (lt_of_le_of_lt a1 l2)
  have b2 := (zpow_lt_zpow_iff_right₀ (by norm_num : (1 : ℚ) < 2)).mp (lt_of_le_of_lt l1 a2)
  omega

theorem rN_spec {α : Type} (a : ℕ) (e : α) :
    (∀ k, rN a e k = e) ∨ ∃ m t, (∀ k, rN a e k = k m t) ∧ ∀ J : ℕ, roundEven 53 ((a : ℚ) / 2 ^ J) = ((m * t : ℕ) : ℚ) / 2 ^ J := by
  unfold rN
  simp only [fN_eq (lg 8 a 0)]
  generalize lg 8 a 0 = l
  cases hb : (Nat.ble (2 ^ l) a && Nat.blt a (2 ^ (l + 1))) with
  | false =>
    simp only
    cases h0 : Nat.beq a 0 with
    | true =>
      right
      have : a = 0 := Nat.eq_of_beq_eq_true h0
      refine ⟨0, 0, fun _ => rfl, fun J => ?_⟩
      rw [this]; simp [roundEven_zero]
    | false => left; intro _; rfl
  | true =>
    simp only
    rw [Bool.and_eq_true] at hb
    have h1 : 2 ^ l ≤ a := Nat.le_of_ble_eq_true hb.1
    have h2 : a < 2 ^ (l + 1) := Nat.le_of_ble_eq_true hb.2
    right
    have hr : ∀ J : ℕ, roundEven 53 ((a : ℚ) / 2 ^ J) = halfEven ((a : ℚ) / 2 ^ J / 2 ^ ((l : ℤ) - J - 53 + 1)) * 2 ^ ((l : ℤ) - J - 53 + 1) := by
      intro J
      rw [roundEven_pos (by positivity), log_scaled J h1 h2]
      push_cast; rfl
    cases h3 : Nat.ble 53 l with
    | false =>
      refine ⟨a, 1, fun _ => rfl, fun J => ?_⟩
      have h3 : l ≤ 52 := by
        by_contra hc
        rw [Nat.ble_eq_true_of_le (by omega)] at h3
        exact absurd h3 (by simp)
      rw [hr]
      have e1 : (a : ℚ) / 2 ^ J / 2 ^ ((l : ℤ) - J - 53 + 1) = ((a * 2 ^ (52 - l) : ℕ) : ℤ) := by
        rw [show (l : ℤ) - J - 53 + 1 = -((52 - l : ℕ) : ℤ) - J by omega, zpow_sub₀ (by norm_num), zpow_neg, zpow_natCast, zpow_natCast]
        push_cast
        field_simp
      rw [e1, halfEven_eq (m := ((a * 2 ^ (52 - l) : ℕ) : ℤ)) (by linarith) (by linarith), ← e1, div_mul_cancel₀ _ (p2_pos _).ne', mul_one]
    | true =>
      have h3 : 53 ≤ l := Nat.le_of_ble_eq_true h3
      simp only [fN_eq]
      have e0 : ∀ J : ℕ, (2 : ℚ) ^ ((l : ℤ) - J - 53 + 1) = ((2 ^ (l - 52) : ℕ) : ℚ) / 2 ^ J := by
        intro J
        rw [show (l : ℤ) - J - 53 + 1 = ((l - 52 : ℕ) : ℤ) - J by omega, zpow_sub₀ (by norm_num), zpow_natCast, zpow_natCast]
        push_cast; rfl
      have ht : 0 < 2 ^ (l - 52) := by positivity
      have e1 : ∀ J : ℕ, roundEven 53 ((a : ℚ) / 2 ^ J) = halfEven ((a : ℚ) / (2 ^ (l - 52) : ℕ)) * (2 ^ (l - 52) : ℕ) / 2 ^ J := by
        intro J
        rw [hr, e0, div_div_div_cancel_right₀ (by positivity)]
        ring
      generalize 2 ^ (l - 52) = t at *
      have htq : (0:ℚ) < t := by exact_mod_cast ht
      have hd := Nat.div_add_mod a t
      have hm := Nat.mod_lt a ht
      have hdq : (a : ℚ) = t * (a / t : ℕ) + (a % t : ℕ) := by exact_mod_cast hd.symm
      have hmq : ((a % t : ℕ) : ℚ) < t := by exact_mod_cast hm
      have fl : ⌊(a : ℚ) / t⌋ = ((a / t : ℕ) : ℤ) := by
        rw [Int.floor_eq_iff]
        have : (0:ℚ) ≤ (a % t : ℕ) := Nat.cast_nonneg _
        constructor
        · rw [le_div_iff₀ htq]; rw [Int.cast_natCast]; linarith
        · rw [div_lt_iff₀ htq]; rw [Int.cast_natCast]; linarith
      have fr : (a : ℚ) / t - ((a / t : ℕ) : ℤ) = (a % t : ℕ) / t := by
        rw [Int.cast_natCast, eq_div_iff htq.ne', sub_mul, div_mul_cancel₀ _ htq.ne']; linarith
      have fin : ∀ m : ℕ, halfEven ((a : ℚ) / t) = (m : ℤ) → ∀ J : ℕ, roundEven 53 ((a : ℚ) / 2 ^ J) = ((m * t : ℕ) : ℚ) / 2 ^ J := by
        intro m hm J
        rw [e1, hm]; push_cast; rfl
      cases h4 : Nat.blt (2 * (a % t)) t with
      | true =>
        refine ⟨a / t, t, fun _ => rfl, fin _ ?_⟩
        have h4 : 2 * (a % t) < t := Nat.le_of_ble_eq_true h4
        have h4q : (2:ℚ) * (a % t : ℕ) < t := by exact_mod_cast h4
        unfold halfEven
        rw [fl, fr, if_pos]
        rw [div_lt_iff₀ htq]; linarith
      | false =>
        simp only
        have h4 : t ≤ 2 * (a % t) := by
          by_contra hc
          have : Nat.blt (2 * (a % t)) t = true := Nat.ble_eq_true_of_le (by omega : 2 * (a % t) + 1 ≤ t)
          rw [h4] at this; exact absurd this (by simp)
        have h4q : (t : ℚ) ≤ 2 * (a % t : ℕ) := by exact_mod_cast h4
        cases h5 : Nat.blt t (2 * (a % t)) with
        | true =>
          refine ⟨a / t + 1, t, fun _ => rfl, fin _ ?_⟩
          have h5 : t < 2 * (a % t) := Nat.le_of_ble_eq_true h5
          have h5q : (t : ℚ) < 2 * (a % t : ℕ) := by exact_mod_cast h5
          unfold halfEven
          rw [fl, fr, if_neg, if_pos]
          · push_cast; rfl
          · rw [lt_div_iff₀ htq]; linarith
          · rw [not_lt, le_div_iff₀ htq]; linarith
        | false =>
          have h5 : 2 * (a % t) ≤ t := by
            by_contra hc
            have : Nat.blt t (2 * (a % t)) = true := Nat.ble_eq_true_of_le (by omega : t + 1 ≤ 2 * (a % t))
            rw [h5] at this; exact absurd this (by simp)
          have h5q : 2 * ((a % t : ℕ) : ℚ) ≤ t := by exact_mod_cast h5
          refine ⟨a / t + a / t % 2, t, fun _ => rfl, fin _ ?_⟩
          unfold halfEven
          rw [fl, fr, if_neg, if_neg]
          · split <;> push_cast <;> omega
          · rw [not_lt, div_le_iff₀ htq]; linarith
          · rw [not_lt, le_div_iff₀ htq]; linarith

theorem rI_spec {α : Type} (x : ℤ) (e : α) :
    (∀ f, rI x e f = e) ∨ ∃ y : ℤ, (∀ f, rI x e f = f y) ∧ ∀ J : ℕ, roundEven 53 ((x : ℚ) / 2 ^ J) = (y : ℚ) / 2 ^ J := by
  cases x with
  | ofNat a =>
    rcases rN_spec a e with h | ⟨m, t, h, hr⟩
    · left; exact fun f => h fun m t => f (.ofNat (m * t))
    · right
      refine ⟨.ofNat (m * t), fun f => h fun m t => f (.ofNat (m * t)), fun J => ?_⟩
      have := hr J
      simpa using this
  | negSucc a =>
    rcases rN_spec (Nat.succ a) e with h | ⟨m, t, h, hr⟩
    · left; exact fun f => h fun m t => f (Int.negOfNat (m * t))
    · right
      refine ⟨Int.negOfNat (m * t), fun f => h fun m t => f (Int.negOfNat (m * t)), fun J => ?_⟩
      have := hr J
      rw [Int.negOfNat_eq, Int.cast_negSucc, neg_div, roundEven_neg, this]
      simp [neg_div]

theorem dv_spec {α : Type} (x : ℤ) (n : ℕ) (e : α) : (∀ f, dv x n e f = e) ∨ ∃ y : ℤ, (∀ f, dv x n e f = f y) ∧ x = y * n := by
  unfold dv
  cases h : Nat.beq (x.natAbs % n) 0 with
  | false => left; intro _; rfl
  | true =>
    right
    refine ⟨x / n, fun _ => fI_eq _ _, ?_⟩
    have h0 : x.natAbs % n = 0 := Nat.eq_of_beq_eq_true h
    have : (n : ℤ) ∣ x := Int.natCast_dvd.mpr (Nat.dvd_of_mod_eq_zero h0)
    exact (Int.ediv_mul_cancel this).symm

abbrev St := ℤ × ℤ × ℤ × ℤ

/-- One step: (re, im)/2^66 is the factor in `double`, (C, Z)/2^120 the root of unity; their distance is compared with bd. -/
def step (wr wi c s : ℤ) (bd : ℕ) (re im C Z : ℤ) (f : ℤ → ℤ → ℤ → ℤ → Option St) : Option St :=
  fI (re * (2 ^ 54 : ℕ) - C) fun dr => fI (im * (2 ^ 54 : ℕ) - Z) fun di =>
  match Nat.ble (dr.natAbs * dr.natAbs + di.natAbs * di.natAbs) bd with
  | false => none
  | true =>
    rI (re * wr) none fun p1 => rI (im * wi) none fun p2 => rI (im * wr) none fun p3 => rI (re * wi) none fun p4 =>
    rI (p1 - p2) none fun a => rI (p3 + p4) none fun b =>
    rI (re * (2 ^ 90 : ℕ) + a) none fun re' => rI (im * (2 ^ 90 : ℕ) + b) none fun im' =>
    dv re' (2 ^ 90) none fun re' => dv im' (2 ^ 90) none fun im' =>
    fI ((C * c - Z * s) / (2 ^ 120 : ℕ)) fun C' => fI ((C * s + Z * c) / (2 ^ 120 : ℕ)) fun Z' =>
    f re' im' C' Z'

def run (wr wi c s : ℤ) (bd : ℕ) : ℕ → ℤ → ℤ → ℤ → ℤ → Option St
  | 0, re, im, C, Z => some (re, im, C, Z)
  | n + 1, re, im, C, Z => step wr wi c s bd re im C Z (run wr wi c s bd n)

/-- `run` in pieces of m steps. -/
def outer (wr wi c s : ℤ) (bd : ℕ) (m : ℕ) : ℕ → ℤ → ℤ → ℤ → ℤ → Option St
  | 0, re, im, C, Z => some (re, im, C, Z)
  | n + 1, re, im, C, Z => match run wr wi c s bd m re im C Z with
    | none => none
    | some (re', im', C', Z') => outer wr wi c s bd m n re' im' C' Z'

/-- What a step computes: the recurrence of the code with values at scale 2^66, the factors wr, wi at scale 2^90. -/
theorem step_spec (wr wi c s : ℤ) (bd : ℕ) (re im C Z : ℤ) :
    (∀ f, step wr wi c s bd re im C Z f = none) ∨ ∃ re' im', (∀ f, step wr wi c s bd re im C Z f = f re' im' ((C * c - Z * s) / (2 ^ 120 : ℕ)) ((C * s + Z * c) / (2 ^ 120 : ℕ))) ∧
      (re * 2 ^ 54 - C) ^ 2 + (im * 2 ^ 54 - Z) ^ 2 ≤ (bd : ℤ) ∧
      (let r := roundEven 53; let x : ℚ := (re : ℚ) / 2 ^ 66; let y : ℚ := (im : ℚ) / 2 ^ 66; let a : ℚ := (wr : ℚ) / 2 ^ 90; let b : ℚ := (wi : ℚ) / 2 ^ 90
       (re' : ℚ) / 2 ^ 66 = r (x + r (r (x * a) - r (y * b))) ∧ (im' : ℚ) / 2 ^ 66 = r (y + r (r (y * a) + r (x * b)))) := by
  unfold step
  simp only [fI_eq]
  cases hb : Nat.ble ((re * (2 ^ 54 : ℕ) - C).natAbs * (re * (2 ^ 54 : ℕ) - C).natAbs + (im * (2 ^ 54 : ℕ) - Z).natAbs * (im * (2 ^ 54 : ℕ) - Z).natAbs) bd with
  | false => left; intro _; rfl
  | true =>
    simp only
    have hbd : (re * 2 ^ 54 - C) ^ 2 + (im * 2 ^ 54 - Z) ^ 2 ≤ (bd : ℤ) := by
      have := Nat.le_of_ble_eq_true hb
      have : (((re * (2 ^ 54 : ℕ) - C).natAbs * (re * (2 ^ 54 : ℕ) - C).natAbs + (im * (2 ^ 54 : ℕ) - Z).natAbs * (im * (2 ^ 54 : ℕ) - Z).natAbs : ℕ) : ℤ) ≤ bd := by
        exact_mod_cast this
      push_cast at this
      rw [abs_mul_abs_self, abs_mul_abs_self] at this
      linarith
    rcases rI_spec (re * wr) (none : Option St) with h | ⟨p1, h, r1⟩
    · left; intro f; simp only [h]
    simp only [h]
    rcases rI_spec (im * wi) (none : Option St) with h | ⟨p2, h, r2⟩
    · left; intro f; simp only [h]
    simp only [h]
    rcases rI_spec (im * wr) (none : Option St) with h | ⟨p3, h, r3⟩
    · left; intro f; simp only [h]
    simp only [h]
    rcases rI_spec (re * wi) (none : Option St) with h | ⟨p4, h, r4⟩
    · left; intro f; simp only [h]
    simp only [h]
    rcases rI_spec (p1 - p2) (none : Option St) with h | ⟨a, h, r5⟩
    · left; intro f; simp only [h]
    simp only [h]
    rcases rI_spec (p3 + p4) (none : Option St) with h | ⟨b, h, r6⟩
    · left; intro f; simp only [h]
    simp only [h]
    rcases rI_spec (re * (2 ^ 90 : ℕ) + a) (none : Option St) with h | ⟨x1, h, r7⟩
    · left; intro f; simp only [h]
    simp only [h]
    rcases rI_spec (im * (2 ^ 90 : ℕ) + b) (none : Option St) with h | ⟨y1, h, r8⟩
    · left; intro f; simp only [h]
    simp only [h]
    rcases dv_spec x1 (2 ^ 90) (none : Option St) with h | ⟨x2, h, d1⟩
    · left; intro f; simp only [h]
    simp only [h]
    rcases dv_spec y1 (2 ^ 90) (none : Option St) with h | ⟨y2, h, d2⟩
    · left; intro f; simp only [h]
    simp only [h]
    right
    refine ⟨x2, y2, fun _ => rfl, hbd, ?_, ?_⟩
    · have e1 : ((re : ℚ) / 2 ^ 66) * (wr / 2 ^ 90) = ((re * wr : ℤ) : ℚ) / 2 ^ 156 := by push_cast; ring
      have e2 : ((im : ℚ) / 2 ^ 66) * (wi / 2 ^ 90) = ((im * wi : ℤ) : ℚ) / 2 ^ 156 := by push_cast; ring
      have e3 : ((p1 : ℚ) / 2 ^ 156) - (p2 / 2 ^ 156) = ((p1 - p2 : ℤ) : ℚ) / 2 ^ 156 := by push_cast; ring
      have e4 : ((re : ℚ) / 2 ^ 66) + (a / 2 ^ 156) = ((re * (2 ^ 90 : ℕ) + a : ℤ) : ℚ) / 2 ^ 156 := by push_cast; ring
      rw [e1, e2, r1, r2, e3, r5, e4, r7, d1]
      push_cast; ring
    · have e1 : ((im : ℚ) / 2 ^ 66) * (wr / 2 ^ 90) = ((im * wr : ℤ) : ℚ) / 2 ^ 156 := by push_cast; ring
      have e2 : ((re : ℚ) / 2 ^ 66) * (wi / 2 ^ 90) = ((re * wi : ℤ) : ℚ) / 2 ^ 156 := by push_cast; ring
      have e3 : ((p3 : ℚ) / 2 ^ 156) + (p4 / 2 ^ 156) = ((p3 + p4 : ℤ) : ℚ) / 2 ^ 156 := by push_cast; ring
      have e4 : ((im : ℚ) / 2 ^ 66) + (b / 2 ^ 156) = ((im * (2 ^ 90 : ℕ) + b : ℤ) : ℚ) / 2 ^ 156 := by push_cast; ring
      rw [e1, e2, r3, r4, e3, r6, e4, r8, d2]
      push_cast; ring

theorem run_add {wr wi c s : ℤ} {bd : ℕ} {N : ℕ} : ∀ {M K : ℕ} {re im C Z re' im' C' Z' : ℤ} {st : Option St}, K = M + N →
    run wr wi c s bd M re im C Z = some (re', im', C', Z') → run wr wi c s bd N re' im' C' Z' = st → run wr wi c s bd K re im C Z = st := by
  intro M
  induction M with
  | zero =>
    intro K re im C Z re' im' C' Z' st hK h1 h2
    rw [Nat.zero_add] at hK; subst hK
    rw [run] at h1
    injection h1 with h1
    injection h1 with a1 a2; injection a2 with a2 a3; injection a3 with a3 a4
    subst a1; subst a2; subst a3; subst a4
    exact h2
  | succ M ih =>
    intro K re im C Z re' im' C' Z' st hK h1 h2
    have hK' : K = (M + N) + 1 := by omega
    subst hK'
    rw [run] at h1 ⊢
    rcases step_spec wr wi c s bd re im C Z with h | ⟨x, y, h, hb, -⟩
    · rw [h] at h1; exact absurd h1 (by simp)
    · rw [h] at h1
      rw [h]
      exact ih rfl h1 h2

theorem outer_run {wr wi c s : ℤ} {bd m : ℕ} : ∀ {n K : ℕ} {re im C Z re' im' C' Z' : ℤ}, K = m * n →
    outer wr wi c s bd m n re im C Z = some (re', im', C', Z') → run wr wi c s bd K re im C Z = some (re', im', C', Z') := by
  intro n
  induction n with
  | zero => intro K re im C Z re' im' C' Z' hK h; rw [Nat.mul_zero] at hK; subst hK; exact h
  | succ n ih =>
    intro K re im C Z re' im' C' Z' hK h
    rw [outer] at h
    cases hr : run wr wi c s bd m re im C Z with
    | none => rw [hr] at h; exact absurd h (by simp)
    | some st =>
      obtain ⟨a, b, c', d⟩ := st
      rw [hr] at h
      exact run_add (M := m) (N := m * n) (by rw [hK]; ring) hr (ih rfl h)

end KInt
end WD
