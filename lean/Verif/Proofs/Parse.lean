import Verif.Spec.Text
import Verif.Spec.Num
import Verif.Model.Parse
import Verif.Proofs.Num
import Mathlib.Tactic.Ring
import Mathlib.Tactic.Linarith
import Mathlib.Tactic.FieldSimp
import Mathlib.Data.List.TakeDrop
/-
  Lemmas about reading decimal texts.
-/
namespace WD
open DW

/-- All characters are digits. -/
def Dig (l : List Char) : Prop := ∀ ch ∈ l, ch.isDigit = true

theorem Dig.append {a b : List Char} (ha : Dig a) (hb : Dig b) : Dig (a ++ b) := by
  intro ch h; rcases List.mem_append.mp h with h | h
  · exact ha ch h
  · exact hb ch h
theorem Dig.left {a b : List Char} (h : Dig (a ++ b)) : Dig a := fun ch hh => h ch (List.mem_append_left _ hh)
theorem Dig.right {a b : List Char} (h : Dig (a ++ b)) : Dig b := fun ch hh => h ch (List.mem_append_right _ hh)
theorem Dig.take {a : List Char} (h : Dig a) (n : ℕ) : Dig (a.take n) := fun ch hh => h ch (List.mem_of_mem_take hh)
theorem Dig.drop {a : List Char} (h : Dig a) (n : ℕ) : Dig (a.drop n) := fun ch hh => h ch (List.mem_of_mem_drop hh)
theorem Dig.zeros (n : ℕ) : Dig (List.replicate n '0') := by
  intro ch h; rw [List.eq_of_mem_replicate h]; decide
theorem Dig.ne {a : List Char} (h : Dig a) {x : Char} (hx : x.isDigit = false) : ∀ ch ∈ a, ch ≠ x := by
  rintro ch hc rfl; rw [h ch hc] at hx; exact absurd hx (by decide)

theorem digit_lt {ch : Char} (h : ch.isDigit = true) : ch.toNat - 48 < 10 := by
  simp only [Char.isDigit, ge_iff_le, Bool.and_eq_true, decide_eq_true_eq] at h
  have h2 : ch.val.toNat ≤ 57 := h.2
  have : ch.toNat = ch.val.toNat := rfl
  omega
theorem digit_ge {ch : Char} (h : ch.isDigit = true) : 48 ≤ ch.toNat := by
  simp only [Char.isDigit, ge_iff_le, Bool.and_eq_true, decide_eq_true_eq] at h
  exact h.1
theorem digit_pos {ch : Char} (h : ch.isDigit = true) (h0 : ch ≠ '0') : 0 < ch.toNat - 48 := by
  have h1 := digit_ge h
  rcases Nat.lt_or_ge 48 ch.toNat with h2 | h2
  · omega
  · exfalso; apply h0
    have : ch.toNat = 48 := by omega
    apply Char.ext; apply UInt32.toNat_inj.mp
    exact this

theorem digitsVal_foldl (l : List Char) : ∀ a : ℕ,
    l.foldl (fun a ch => 10 * a + (ch.toNat - 48)) a = a * 10 ^ l.length + digitsVal l := by
  unfold digitsVal
  induction l with
  | nil => intro a; simp
  | cons x xs ih =>
    intro a
    simp only [List.foldl_cons, List.length_cons, mul_zero, zero_add]
    rw [ih, ih (x.toNat - 48)]; ring

theorem digitsVal_nil : digitsVal [] = 0 := rfl
theorem digitsVal_cons (x : Char) (xs : List Char) :
    digitsVal (x :: xs) = (x.toNat - 48) * 10 ^ xs.length + digitsVal xs := by
  show xs.foldl _ _ = _
  rw [digitsVal_foldl]; simp
theorem digitsVal_append (a b : List Char) : digitsVal (a ++ b) = digitsVal a * 10 ^ b.length + digitsVal b := by
  show (a ++ b).foldl _ 0 = _
  rw [List.foldl_append, digitsVal_foldl]; rfl
theorem digitsVal_zeros (n : ℕ) : digitsVal (List.replicate n '0') = 0 := by
  induction n with
  | zero => rfl
  | succ n ih => rw [List.replicate_succ, digitsVal_cons, ih]; simp
theorem digitsVal_append_zeros (a : List Char) (n : ℕ) :
    digitsVal (a ++ List.replicate n '0') = digitsVal a * 10 ^ n := by
  rw [digitsVal_append, digitsVal_zeros, List.length_replicate, add_zero]
theorem digitsVal_lt {l : List Char} (h : Dig l) : digitsVal l < 10 ^ l.length := by
  induction l with
  | nil => simp [digitsVal_nil]
  | cons x xs ih =>
    rw [digitsVal_cons, List.length_cons, pow_succ]
    have := ih (fun ch hh => h ch (List.mem_cons_of_mem _ hh))
    have h2 := digit_lt (h x List.mem_cons_self)
    nlinarith [Nat.mul_le_mul_right (10 ^ xs.length) (Nat.le_of_lt_succ h2)]
theorem digitsVal_pos {x : Char} {xs : List Char} (h : x.isDigit = true) (h0 : x ≠ '0') : 0 < digitsVal (x :: xs) := by
  rw [digitsVal_cons]
  have := digit_pos h h0
  positivity
theorem takeWhile_all {α} {p : α → Bool} {l : List α} (h : ∀ x ∈ l, p x = true) : l.takeWhile p = l := by
  induction l with
  | nil => rfl
  | cons x xs ih =>
    rw [List.takeWhile_cons, if_pos (h x List.mem_cons_self), ih (fun y hy => h y (List.mem_cons_of_mem _ hy))]
theorem strtoul_dig {l : List Char} (h : Dig l) : strtoul l = digitsVal l := by
  unfold strtoul; rw [takeWhile_all h]; rfl

theorem strtoll_dig {l : List Char} (h : Dig l) : strtoll l = max (-(2 ^ 63)) (min (digitsVal l : ℤ) (2 ^ 63 - 1)) := by
  have hv := strtoul_dig h
  rcases l with - | ⟨x, xs⟩
  · rfl
  · have h1 := h.ne (x := '-') (by decide) x List.mem_cons_self
    have h2 := h.ne (x := '+') (by decide) x List.mem_cons_self
    unfold strtoll
    dsimp only
    congr 2
    split
    · rename_i hh; simp at hh; exact absurd hh.1 h1
    · rename_i hh; simp at hh; exact absurd hh.1 h2
    · rw [hv]

theorem takeWhile_sep {ch : Char} {pre r : List Char} (h : ∀ x ∈ pre, x ≠ ch) :
    (pre ++ ch :: r).takeWhile (· != ch) = pre := by
  induction pre with
  | nil => simp
  | cons x xs ih =>
    rw [List.cons_append, List.takeWhile_cons, if_pos (by simpa using h x List.mem_cons_self),
      ih (fun y hy => h y (List.mem_cons_of_mem _ hy))]
theorem dropWhile_sep {ch : Char} {pre r : List Char} (h : ∀ x ∈ pre, x ≠ ch) :
    (pre ++ ch :: r).dropWhile (· != ch) = ch :: r := by
  induction pre with
  | nil => simp
  | cons x xs ih =>
    rw [List.cons_append, List.dropWhile_cons, if_pos (by simpa using h x List.mem_cons_self),
      ih (fun y hy => h y (List.mem_cons_of_mem _ hy))]
theorem contains_false {ch : Char} {l : List Char} (h : ∀ x ∈ l, x ≠ ch) : l.contains ch = false := by
  rw [Bool.eq_false_iff]; intro hc
  rw [List.contains_iff_mem] at hc
  exact h ch hc rfl
theorem contains_mid (ch : Char) (a r : List Char) : (a ++ ch :: r).contains ch = true := by
  rw [List.contains_iff_mem]; simp

/-- Removing leading zeros does not change the value. -/
theorem digitsVal_dropWhile (l : List Char) : digitsVal (l.dropWhile (· == '0')) = digitsVal l := by
  induction l with
  | nil => rfl
  | cons x xs ih =>
    rw [List.dropWhile_cons]
    split
    · rename_i h
      have hx : x = '0' := by simpa using h
      rw [ih, digitsVal_cons, hx]; simp
    · rfl
theorem dropWhile_head {l : List Char} {x : Char} {xs : List Char} (h : l.dropWhile (· == '0') = x :: xs) : x ≠ '0' := by
  have := List.head_dropWhile_not (p := (· == '0')) (l := l) (by rw [h]; simp)
  simp only [h, List.head_cons] at this
  simpa using this
theorem Dig.dropWhile {l : List Char} (h : Dig l) : Dig (l.dropWhile (· == '0')) :=
  fun ch hh => h ch (List.IsSuffix.mem hh (List.dropWhile_suffix _))

/-- Trailing zeros. -/
theorem stripTrailing_spec (l : List Char) : ∃ k, l = stripTrailing l ++ List.replicate k '0' := by
  unfold stripTrailing
  refine ⟨(l.reverse.takeWhile (· == '0')).length, ?_⟩
  have h := List.takeWhile_append_dropWhile (p := (· == '0')) (l := l.reverse)
  have h2 : l.reverse.takeWhile (· == '0') = List.replicate (l.reverse.takeWhile (· == '0')).length '0' := by
    apply List.eq_replicate_of_mem
    intro b hb
    have := List.all_takeWhile (p := (· == '0')) (l := l.reverse)
    rw [List.all_eq_true] at this
    simpa using this b hb
  conv_lhs => rw [← List.reverse_reverse l, ← h, List.reverse_append]
  rw [h2]; simp
theorem stripTrailing_point (a f : List Char) : stripTrailing (a ++ '.' :: f) = a ++ '.' :: stripTrailing f := by
  unfold stripTrailing
  have : (a ++ '.' :: f).reverse = f.reverse ++ ('.' :: a.reverse) := by simp
  rw [this, List.dropWhile_append]
  split
  · rename_i h
    have h' : f.reverse.dropWhile (· == '0') = [] := by simpa using h
    rw [h']; simp
  · simp
theorem stripTrailing_last {l : List Char} (h : stripTrailing l ≠ []) : (stripTrailing l).getLast h ≠ '0' := by
  have h' : l.reverse.dropWhile (· == '0') ≠ [] := by
    intro hh; apply h; unfold stripTrailing; rw [hh]; rfl
  have := List.head_dropWhile_not (p := (· == '0')) (l := l.reverse) h'
  have e : (stripTrailing l).getLast h = (l.reverse.dropWhile (· == '0')).head h' := by
    exact List.getLast_reverse (l := l.reverse.dropWhile (· == '0')) _
  rw [e]; simpa using this

theorem idxOf_point {a b : List Char} (h : Dig a) : (a ++ '.' :: b).idxOf '.' = a.length := by
  have hn : '.' ∉ a := fun hm => h.ne (x := '.') (by decide) '.' hm rfl
  rw [List.idxOf_append_of_notMem hn]; simp

/-- The invariant of the normalisation: digits, a point, digits; the first digit is not zero. -/
structure NF (s : List Char) (a b : List Char) : Prop where
  eq : s = a ++ '.' :: b
  da : Dig a
  db : Dig b
  ne : a ≠ []
  hd : a.head? ≠ some '0'

/-- The magnitude of a normalised text. -/
def nfVal (a b : List Char) (e : ℤ) : ℚ := (digitsVal (a ++ b) : ℚ) * (10 : ℚ) ^ (e - b.length)

theorem splitExp_chars (t : DecText) (ht : t.Valid) (hlo : -(2 ^ 63) ≤ t.exponent) (hhi : t.exponent < 2 ^ 63) :
    splitExp t.chars = (DecText.signChars t.sign ++ t.ip ++ DecText.pointChars t.fp,
      t.exponent) := by
  obtain ⟨sg, ip, fp, ex⟩ := t
  have dip : Dig ip := ht.ip
  have dfp : Dig (fp.getD []) := ht.fp
  have hpre : ∀ x : Char, x.isDigit = false → x ≠ '-' → x ≠ '+' → x ≠ '.' →
      ∀ y ∈ DecText.signChars sg ++ ip ++ DecText.pointChars fp, y ≠ x := by
    intro x h1 h2 h3 h4 y hy
    rw [List.mem_append, List.mem_append] at hy
    rcases hy with (hy | hy) | hy
    · rcases sg with - | (- | -) <;> simp [DecText.signChars] at hy <;> subst hy
      · exact h3.symm
      · exact h2.symm
    · exact dip.ne h1 y hy
    · rcases fp with - | f
      · simp [DecText.pointChars] at hy
      · rcases List.mem_cons.mp hy with hy | hy
        · subst hy; exact h4.symm
        · exact dfp.ne h1 y hy
  unfold splitExp DecText.chars
  dsimp only
  generalize (DecText.signChars sg ++ ip ++ DecText.pointChars fp) = pre at hpre ⊢
  have he := hpre 'e' (by decide) (by decide) (by decide) (by decide)
  have hE := hpre 'E' (by decide) (by decide) (by decide) (by decide)
  rcases ex with - | ⟨up, s, d⟩
  · simp only [DecText.expChars, List.append_nil]
    rw [contains_false he, contains_false hE]
    rfl
  · obtain ⟨hd0, hd⟩ := ht.ex up s d rfl
    have hd : Dig d := hd
    have hst : strtoll (DecText.signChars s ++ d) =
        DecText.exponent { sign := sg, ip := ip, fp := fp, ex := some (up, s, d) } := by
      have hv : strtoul d = digitsVal d := strtoul_dig hd
      unfold DecText.exponent at hlo hhi ⊢
      rcases s with - | (- | -)
      · simp only [DecText.signChars, List.nil_append] at hlo hhi ⊢
        rw [strtoll_dig hd]
        simp only [reduceCtorEq, if_false, one_mul] at hlo hhi ⊢
        omega
      · simp only [DecText.signChars, List.cons_append, List.nil_append] at hlo hhi ⊢
        unfold strtoll
        simp [hv] at hlo hhi ⊢
        omega
      · simp only [DecText.signChars, List.cons_append, List.nil_append] at hlo hhi ⊢
        unfold strtoll
        simp [hv] at hlo hhi ⊢
        omega
    cases up
    · simp only [DecText.expChars, Bool.false_eq_true, if_false]
      rw [if_pos (contains_mid _ _ _), takeWhile_sep he, dropWhile_sep he]
      simp only [List.drop_succ_cons, List.drop_zero]
      rw [hst]
    · simp only [DecText.expChars, if_true]
      have : (pre ++ 'E' :: (DecText.signChars s ++ d)).contains 'e' = false := by
        apply contains_false
        intro x hx
        rw [List.mem_append, List.mem_cons, List.mem_append] at hx
        rcases hx with hx | hx | hx | hx
        · exact he x hx
        · subst hx; decide
        · rcases s with - | (- | -) <;> simp [DecText.signChars] at hx <;> subst hx <;> decide
        · exact hd.ne (by decide) x hx
      rw [this, if_neg (by simp), if_pos (contains_mid _ _ _), takeWhile_sep hE, dropWhile_sep hE]
      simp only [List.drop_succ_cons, List.drop_zero]
      rw [hst]

theorem sign_removal (sg : Option Bool) (m : List Char) (h1 : ∀ x ∈ m, x ≠ '-') (h2 : ∀ x ∈ m, x ≠ '+') :
    let s := DecText.signChars sg ++ m
    s.contains '-' = decide (sg = some true) ∧
    (let s := if s.contains '-' then s.erase '-' else s
     if s.contains '+' then s.erase '+' else s) = m := by
  have c1 := contains_false h1
  have c2 := contains_false h2
  rcases sg with - | (- | -)
  · dsimp only [DecText.signChars, List.nil_append]; rw [c1]; simp only [Bool.false_eq_true, if_false]
    rw [c2]; simp
  · dsimp only [DecText.signChars]
    have : (['+'] ++ m).contains '-' = false := by
      apply contains_false; intro x hx
      rcases List.mem_append.mp hx with hx | hx
      · simp at hx; subst hx; decide
      · exact h1 x hx
    rw [this]; simp
  · dsimp only [DecText.signChars]
    have : (['-'] ++ m).contains '-' = true := by simp
    rw [this]; simp only [if_true]
    have h3 : (['-'] ++ m).erase '-' = m := by simp
    rw [h3, c2]; simp

end WD
