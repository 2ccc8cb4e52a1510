import Verif.Proofs.Num

namespace WD
open DW

/-! ### Lists -/

theorem limbsVal_take_drop {B : Nat} {l : List Nat} (i : Nat) :
    limbsVal B l = limbsVal B (l.take i) * B ^ (l.length - i) + limbsVal B (l.drop i) := by
  conv_lhs => rw [← List.take_append_drop i l]
  rw [limbsVal_append, List.length_drop]

theorem limbsVal_take {B : Nat} {l : List Nat} (hB : 0 < B) (hv : ValidLimbs B l) (i : Nat) :
    limbsVal B (l.take i) = limbsVal B l / B ^ (l.length - i) := by
  have h := limbsVal_take_drop (B := B) (l := l) i
  have h2 := limbsVal_lt (hv.drop i)
  rw [List.length_drop] at h2
  have hp : 0 < B ^ (l.length - i) := Nat.pow_pos hB
  rw [h, Nat.add_comm, Nat.add_mul_div_right _ _ hp, Nat.div_eq_of_lt h2, Nat.zero_add]

theorem limbsVal_drop {B : Nat} {l : List Nat} (hv : ValidLimbs B l) (i : Nat) :
    limbsVal B (l.drop i) = limbsVal B l % B ^ (l.length - i) := by
  have h := limbsVal_take_drop (B := B) (l := l) i
  have h2 := limbsVal_lt (hv.drop i)
  rw [List.length_drop] at h2
  rw [h, Nat.add_comm, Nat.add_mul_mod_self_right, Nat.mod_eq_of_lt h2]

theorem shr_length {N k : Nat} {d : List Nat} (hd : d.length = N) (hk : k ≤ N) : (shr N k d).length = N := by
  simp [shr, hd]; omega

theorem shr_valid {B N k : Nat} {d : List Nat} (hB : 0 < B) (hv : ValidLimbs B d) : ValidLimbs B (shr N k d) := by
  rw [shr, validLimbs_append]
  exact ⟨validLimbs_replicate hB, hv.take _⟩

theorem take_shr {N k p : Nat} {d : List Nat} (hk : k ≤ p) (hp : p ≤ N) :
    (shr N k d).take p = List.replicate k 0 ++ d.take (p - k) := by
  rw [shr, List.take_append, List.length_replicate, List.take_take, List.take_of_length_le (by simp; exact hk)]
  congr 2; omega

theorem limbsVal_take_shr {B N k p : Nat} {d : List Nat} (hB : 0 < B) (hd : d.length = N) (hv : ValidLimbs B d)
    (hk : k ≤ p) (hp : p ≤ N) :
    limbsVal B ((shr N k d).take p) = limbsVal B (d.take p) / B ^ k := by
  rw [take_shr hk hp, limbsVal_append, limbsVal_replicate_zero, zero_mul, zero_add]
  have h1 : d.take (p - k) = (d.take p).take (p - k) := by rw [List.take_take]; congr 1; omega
  rw [h1, limbsVal_take hB (hv.take p)]
  congr 2
  simp [hd]; omega

theorem set_zero_append {a b : List Nat} {x : Nat} (ha : a ≠ []) : (a ++ b).set 0 x = x :: (a.tail ++ b) := by
  cases a with
  | nil => exact absurd rfl ha
  | cons y ys => rfl

theorem carryIn_full {N : Nat} {d : List Nat} {x : Nat} (hd : d.length = N) (hN : 1 ≤ N) :
    carryIn N N d x = x :: d.take (N - 1) := by
  unfold carryIn
  have h1 : N - (N - 1) = 1 := by omega
  rw [h1, set_zero_append (by intro h; have := congrArg List.length h; simp [hd] at this; omega)]
  cases d with
  | nil => simp at hd; omega
  | cons y ys => simp

/-! ### First-p-limbs view -/

/-- Integer of the first `p` limbs. -/
def DW.mantp (c : Cfg) (p : Nat) (x : DW) : Nat := limbsVal c.B (x.data.take p)

/-- Exponent of limb `p-1`. -/
def DW.lexpp (c : Cfg) (p : Nat) (x : DW) : ℤ := x.exp - (c.ed : ℤ) * ((p : ℤ) - 1)

/-- Magnitude denoted by the first `p` limbs. -/
def DW.absp (c : Cfg) (p : Nat) (x : DW) : ℚ := x.mantp c p * 10 ^ x.lexpp c p

theorem mantp_N {c : Cfg} {x : DW} (h : x.data.length = c.N) : x.mantp c c.N = x.mant c := by
  unfold mantp mant; rw [← h, List.take_length]

theorem absp_N {c : Cfg} {x : DW} (h : x.data.length = c.N) : x.absp c c.N = |x.val c| := by
  rw [abs_val]; unfold absp; rw [mantp_N h]; rfl

theorem absp_nonneg (c : Cfg) (p : Nat) (x : DW) : 0 ≤ x.absp c p := by unfold absp; positivity

/-- Splitting off the limbs behind the first `p`. -/
theorem abs_val_split {c : Cfg} {x : DW} (h : x.data.length = c.N) {p : Nat} (hp : p ≤ c.N) :
    |x.val c| = x.absp c p + limbsVal c.B (x.data.drop p) * 10 ^ x.lexp c := by
  rw [abs_val]
  have h1 := limbsVal_take_drop (B := c.B) (l := x.data) p
  rw [h] at h1
  have h2 := c.p10_mul_B (x.lexp c) (c.N - p)
  have h3 : x.lexp c + (c.ed : ℤ) * ((c.N - p : Nat) : ℤ) = x.lexpp c p := by
    have : ((c.N - p : Nat) : ℤ) = (c.N : ℤ) - p := by omega
    rw [this]; unfold lexp lexpp; ring
  rw [h3] at h2
  unfold absp mantp mant
  rw [h1, ← h2]
  push_cast
  ring

theorem drop_lt {c : Cfg} {x : DW} (h : x.data.length = c.N) (hv : ValidLimbs c.B x.data) {p : Nat} (hp : p ≤ c.N) :
    (limbsVal c.B (x.data.drop p) : ℚ) * 10 ^ x.lexp c < 10 ^ x.lexpp c p := by
  have h1 := limbsVal_lt (hv.drop p)
  rw [List.length_drop, h] at h1
  have h2 := c.p10_mul_B (x.lexp c) (c.N - p)
  have h3 : x.lexp c + (c.ed : ℤ) * ((c.N - p : Nat) : ℤ) = x.lexpp c p := by
    have : ((c.N - p : Nat) : ℤ) = (c.N : ℤ) - p := by omega
    rw [this]; unfold lexp lexpp; ring
  rw [h3] at h2
  rw [← h2, mul_comm]
  have h4 : (limbsVal c.B (x.data.drop p) : ℚ) < (c.B : ℚ) ^ (c.N - p) := by exact_mod_cast h1
  exact mul_lt_mul_of_pos_left h4 (p10_pos _)

theorem WF.absp_le {c : Cfg} {x : DW} (h : WF c x) {p : Nat} (hp : p ≤ c.N) : x.absp c p ≤ |x.val c| := by
  rw [abs_val_split h.len hp]
  have : (0 : ℚ) ≤ limbsVal c.B (x.data.drop p) * 10 ^ x.lexp c := by positivity
  linarith

theorem WF.lt_absp {c : Cfg} {x : DW} (h : WF c x) {p : Nat} (hp : p ≤ c.N) :
    |x.val c| < x.absp c p + 10 ^ x.lexpp c p := by
  rw [abs_val_split h.len hp]
  have := drop_lt h.len h.valid hp
  linarith

theorem WF.mantp_ge {c : Cfg} {x : DW} (h : WF c x) (hz : x.isZero = false) {p : Nat} (hp1 : 1 ≤ p) (hp : p ≤ c.N) :
    c.B ^ (p - 1) ≤ x.mantp c p := by
  have hh : (x.data.take p).headD 0 ≠ 0 := by
    have : x.data.headD 0 ≠ 0 := by simpa [isZero, d0] using hz
    cases hd : x.data with
    | nil => rw [hd] at this; simp at this
    | cons y ys =>
      rw [hd] at this
      obtain ⟨q, rfl⟩ : ∃ q, p = q + 1 := ⟨p - 1, by omega⟩
      simpa using this
  have := limbsVal_pos_of_head c.B_pos hh
  rw [List.length_take, h.len, Nat.min_eq_left hp] at this
  exact this

theorem WF.mantp_lt {c : Cfg} {x : DW} (h : WF c x) {p : Nat} (hp : p ≤ c.N) : x.mantp c p < c.B ^ p := by
  have := limbsVal_lt (h.valid.take p)
  rw [List.length_take, h.len, Nat.min_eq_left hp] at this
  exact this

/-- Rational form of a truncated shift: with `e' = e - k·ed`, `V·10^e' = (V/B^k + frac)·10^e`. -/
theorem shift_frac (c : Cfg) (V k : Nat) (e e' : ℤ) (he : e = e' + (c.ed : ℤ) * k) :
    ((V / c.B ^ k : Nat) : ℚ) * 10 ^ e ≤ V * 10 ^ e' ∧ (V : ℚ) * 10 ^ e' < ((V / c.B ^ k : Nat) : ℚ) * 10 ^ e + 10 ^ e := by
  have h1 := c.p10_mul_B e' k
  rw [← he] at h1
  have hp := p10_pos e'
  have hb : 0 < c.B ^ k := Nat.pow_pos c.B_pos
  have h2 : V / c.B ^ k * c.B ^ k ≤ V := Nat.div_mul_le_self _ _
  have h3 : V < V / c.B ^ k * c.B ^ k + c.B ^ k := Nat.lt_div_mul_add hb
  have h2' : ((V / c.B ^ k : Nat) : ℚ) * (c.B : ℚ) ^ k ≤ V := by exact_mod_cast h2
  have h3' : (V : ℚ) < ((V / c.B ^ k : Nat) : ℚ) * (c.B : ℚ) ^ k + (c.B : ℚ) ^ k := by exact_mod_cast h3
  rw [← h1]
  constructor
  · nlinarith
  · nlinarith

end WD
