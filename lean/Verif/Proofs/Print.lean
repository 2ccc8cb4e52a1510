import Verif.Proofs.Parse3
import Verif.Model.Print
import Verif.Props.Tables
import Mathlib.Tactic.IntervalCases
/-
  Lemmas about the digits written for a number.
-/
namespace WD
open DW Util

theorem extractChar_dig : ∀ d, d < 10 → (extractChar true d).isDigit = true ∧ (extractChar true d).toNat - 48 = d := by
  decide

/-- `baselexical_cast` in base 10. -/
theorem blcLoop10 (cap : ℕ) : ∀ (k x : ℕ) (out : List Char), x < 10 ^ k → out.length + k ≤ cap →
    ∃ ds, blcLoop 10 cap true x out = some (out ++ ds) ∧ Dig ds ∧ digitsVal ds.reverse = x ∧ ds.length ≤ k ∧
      (∀ h : ds ≠ [], ds.getLast h ≠ '0') ∧ (x ≠ 0 → ds ≠ []) := by
  intro k
  induction k with
  | zero =>
    intro x out hx _
    have : x = 0 := by simpa using hx
    subst this
    refine ⟨[], ?_, by intro ch h; simp at h, rfl, le_refl _, fun h => absurd rfl h, by simp⟩
    unfold blcLoop; simp
  | succ k ih =>
    intro x out hx hcap
    by_cases h0 : x = 0
    · subst h0
      refine ⟨[], ?_, by intro ch h; simp at h, rfl, by simp, fun h => absurd rfl h, by simp⟩
      unfold blcLoop; simp
    · have hlt : x / 10 < 10 ^ k := by
        rw [Nat.div_lt_iff_lt_mul (by omega)]; rwa [pow_succ] at hx
      obtain ⟨ds, e1, e2, e3, e4, e5, e6⟩ := ih (x / 10) (out ++ [extractChar true (x % 10)]) hlt (by simp; omega)
      obtain ⟨q1, q2⟩ := extractChar_dig (x % 10) (Nat.mod_lt _ (by omega))
      refine ⟨extractChar true (x % 10) :: ds, ?_, ?_, ?_, by simp; omega, ?_, by simp⟩
      · rw [blcLoop, dif_pos ⟨h0, by norm_num⟩, if_pos (by omega), e1]; simp
      · intro ch hch
        rcases List.mem_cons.mp hch with h | h
        · rw [h]; exact q1
        · exact e2 ch h
      · rw [List.reverse_cons, digitsVal_append, e3, digitsVal_cons, q2, digitsVal_nil]
        simp; omega
      · intro h
        by_cases hds : ds = []
        · subst hds
          rw [List.getLast_singleton]
          have : x / 10 = 0 := by simpa [digitsVal_nil] using e3.symm
          intro hm; rw [hm] at q2
          have : x % 10 = 0 := by rw [← q2]; decide
          omega
        · rw [List.getLast_cons hds]; exact e5 hds

theorem blc10 (cap k u : ℕ) (hu : u < 10 ^ k) (hk : k ≤ cap) (hk0 : 0 < k) :
    ∃ s, blc 10 cap true u = some s ∧ Dig s ∧ digitsVal s = u ∧ s.length = orderOf u ∧ s.length ≤ k ∧ s ≠ [] ∧
      (u ≠ 0 → s.head? ≠ some '0') := by
  by_cases h0 : u = 0
  · subst h0
    refine ⟨['0'], ?_, by intro ch h; rcases List.mem_singleton.mp h with rfl; decide, by decide, ?_, hk0, by decide, fun h => absurd rfl h⟩
    · unfold blc
      rw [if_pos rfl, if_pos (by omega)]
      decide
    · rw [orderOf]; simp
  · obtain ⟨ds, e1, e2, e3, e4, e5, e6⟩ := blcLoop10 cap k u [] hu (by simpa using hk)
    have hd : Dig ds.reverse := fun ch h => e2 ch (by simpa using h)
    have hne := e6 h0
    obtain ⟨y, ys, hy⟩ := List.exists_cons_of_ne_nil (List.reverse_ne_nil_iff.mpr hne)
    have hy0 : y ≠ '0' := by
      have h1 := e5 hne
      have : ds.getLast hne = y := by
        have : ds.reverse.head (by rw [hy]; simp) = y := by simp [hy]
        rw [← this, List.head_reverse]
      rwa [this] at h1
    have hyd : y.isDigit = true := hd y (by rw [hy]; exact List.mem_cons_self)
    refine ⟨ds.reverse, ?_, hd, e3, ?_, by simpa using e4, by rw [hy]; simp, ?_⟩
    · unfold blc; rw [if_neg h0, e1]; simp
    · -- length
      obtain ⟨o1, o2, o3⟩ := orderOf_digits u
      have l1 := digitsVal_lt hd
      rw [e3] at l1
      have l2 : 10 ^ (ds.reverse.length - 1) ≤ u := by
        rw [← e3, hy, digitsVal_cons, List.length_cons, Nat.add_sub_cancel]
        have := digit_pos hyd hy0
        nlinarith [Nat.zero_le (digitsVal ys), Nat.one_le_iff_ne_zero.mpr this.ne', Nat.pow_pos (n := ys.length) (show 0 < 10 by norm_num)]
      have o2 := o2 (by omega)
      have a1 := (Nat.pow_lt_pow_iff_right (a := 10) (by norm_num)).mp (lt_of_le_of_lt l2 o1)
      have a2 := (Nat.pow_lt_pow_iff_right (a := 10) (by norm_num)).mp (lt_of_le_of_lt o2 l1)
      have : 0 < ds.reverse.length := by rw [hy]; simp
      omega
    · intro _; rw [hy]; simpa using hy0

theorem limbChars_spec (ed x : ℕ) (hed : 0 < ed) (hx : x < 10 ^ ed) :
    ∃ s, limbChars ed x = some s ∧ Dig s ∧ s.length = ed ∧ digitsVal s = x := by
  obtain ⟨s, h1, h2, h3, -, h5, -⟩ := blc10 ed ed x hx le_rfl hed
  refine ⟨List.replicate (ed - s.length) '0' ++ s, by rw [limbChars, h1]; rfl, (Dig.zeros _).append h2, by simp; omega, ?_⟩
  rw [digitsVal_append, digitsVal_zeros, h3]; simp

theorem limbsChars_spec (ed : ℕ) (hed : 0 < ed) : ∀ l : List ℕ, ValidLimbs (10 ^ ed) l →
    ∃ s, limbsChars ed l = some s ∧ Dig s ∧ s.length = ed * l.length ∧ digitsVal s = limbsVal (10 ^ ed) l ∧
      ∀ k, limbsChars ed (l.take k) = some (s.take (ed * k)) := by
  intro l
  induction l with
  | nil => intro _; exact ⟨[], rfl, by intro ch h; simp at h, by simp, rfl, by intro k; simp [limbsChars]⟩
  | cons x xs ih =>
    intro hv
    rw [validLimbs_cons] at hv
    obtain ⟨s, h1, h2, h3, h4, h5⟩ := ih hv.2
    obtain ⟨a, a1, a2, a3, a4⟩ := limbChars_spec ed x hed hv.1
    refine ⟨a ++ s, by rw [limbsChars, a1, h1]; rfl, a2.append h2, by simp [a3, h3]; ring, ?_, ?_⟩
    · rw [digitsVal_append, a4, h4, h3, limbsVal_cons, ← pow_mul]
    · intro k
      cases k with
      | zero => simp [limbsChars]
      | succ k =>
        rw [List.take_succ_cons, limbsChars, a1, h5 k]
        show some (a ++ _) = _
        rw [Nat.mul_add, Nat.mul_one, List.take_append, List.take_of_length_le (l := a) (by omega), a3, Nat.add_sub_cancel]

/-- All digits of a number; the digits retrieved for fewer limbs are a prefix. -/
theorem outputDigits_spec {c : Cfg} {x : DW} (hx : WF c x) :
    ∃ F, Dig F ∧ F.length = orderOf x.d0 + c.ed * (c.N - 1) ∧ digitsVal F = limbsVal c.B x.data ∧
      (x.isZero = false → F.head? ≠ some '0') ∧
      ∀ k, 1 ≤ k → outputDigits c x k = some (F.take (orderOf x.d0 + c.ed * (k - 1))) := by
  have hN := c.three_le_N
  have hed := c.ed_pos
  have hB : c.B = 10 ^ c.ed := rfl
  rcases hdd : x.data with - | ⟨y, ys⟩
  · have := hx.len; rw [hdd] at this; simp at this; omega
  · have hv := hx.valid
    rw [hdd, validLimbs_cons] at hv
    have hyl : ys.length = c.N - 1 := by have := hx.len; rw [hdd] at this; simp at this; omega
    have hd0 : x.d0 = y := by unfold d0; rw [hdd]; rfl
    obtain ⟨a, a1, a2, a3, a4, -, a6, a7⟩ := blc10 c.ed c.ed y hv.1 le_rfl hed
    obtain ⟨s, h1, h2, h3, h4, h5⟩ := limbsChars_spec c.ed hed ys hv.2
    rw [hd0]
    refine ⟨a ++ s, a2.append h2, by simp [a4, h3, hyl], ?_, ?_, ?_⟩
    · rw [digitsVal_append, a3, h4, h3, limbsVal_cons, ← hB, hB, pow_mul]
    · intro hz
      rw [head?_append_ne a6]
      apply a7
      have : x.d0 ≠ 0 := by simpa [isZero] using hz
      rwa [hd0] at this
    · intro k hk
      unfold outputDigits
      rw [hd0, a1, hdd]
      have : ((y :: ys).take k).drop 1 = ys.take (k - 1) := by
        cases k with
        | zero => omega
        | succ k => simp
      rw [this, h5 (k - 1)]
      show some (a ++ _) = _
      rw [List.take_append, List.take_of_length_le (l := a) (by omega), a4, Nat.add_sub_cancel_left]

theorem isDigit_le9 {ch : Char} (h : ch.isDigit = true) (h9 : ch ≠ '9') : ch.toNat ≤ 56 := by
  have h2 : ch.toNat ≤ 57 := by
    simp only [Char.isDigit, ge_iff_le, Bool.and_eq_true, decide_eq_true_eq] at h
    exact h.2
  rcases Nat.lt_or_ge ch.toNat 57 with h3 | h3
  · omega
  · exfalso; apply h9
    apply Char.ext; apply UInt32.toNat_inj.mp
    show ch.toNat = 57
    omega

theorem nextChar_spec {ch : Char} (h : ch.isDigit = true) (h9 : ch ≠ '9') :
    (nextChar ch).isDigit = true ∧ (nextChar ch).toNat - 48 = (ch.toNat - 48) + 1 ∧ nextChar ch ≠ '0' := by
  have h1 := digit_ge h
  have h2 := isDigit_le9 h h9
  have key : ∀ n, 48 ≤ n → n ≤ 56 → (Char.ofNat (n + 1)).isDigit = true ∧ (Char.ofNat (n + 1)).toNat - 48 = (n - 48) + 1 ∧
      Char.ofNat (n + 1) ≠ '0' := by
    intro n a b
    interval_cases n <;> decide
  exact key ch.toNat h1 h2

/-- The loop over trailing nines. -/
theorem ninesLoop_spec : ∀ (p : List Char) (ch : Char) (k : ℕ), Dig p → ch.isDigit = true →
    ∃ p' ch' k', ninesLoop p.length (p ++ ch :: List.replicate k '0') = (p' ++ ch' :: List.replicate k' '0', p'.length) ∧
      Dig p' ∧ ch'.isDigit = true ∧ (p' = [] ∨ ch' ≠ '9') ∧ p'.length + k' = p.length + k ∧
      (digitsVal (p' ++ [ch']) + 1) * 10 ^ k' = (digitsVal (p ++ [ch]) + 1) * 10 ^ k ∧
      ((p ++ [ch]).head? ≠ some '0' → (p' ++ [ch']).head? ≠ some '0') := by
  intro p
  induction p using List.reverseRecOn with
  | nil =>
    intro ch k hp hc
    exact ⟨[], ch, k, rfl, hp, hc, Or.inl rfl, rfl, rfl, id⟩
  | append_singleton p y ih =>
    intro ch k hp hc
    have hg : (p ++ [y] ++ ch :: List.replicate k '0').getD (p.length + 1) ' ' = ch := by
      rw [List.getD_eq_getElem?_getD, List.getElem?_append_right (by simp)]
      simp
    by_cases h9 : ch = '9'
    · obtain ⟨p', ch', k', e1, e2, e3, e4, e5, e6, e7⟩ := ih y (k + 1) hp.left (hp y (by simp))
      refine ⟨p', ch', k', ?_, e2, e3, e4, by rw [e5]; simp; omega, ?_, ?_⟩
      · rw [List.length_append, List.length_singleton]
        unfold ninesLoop
        rw [hg, if_pos h9, ← e1]
        congr 1
        rw [List.set_append_right _ _ (by simp)]
        simp [List.replicate_succ]
      · rw [e6, h9, digitsVal_append (p ++ [y]) ['9'], pow_succ]
        have : digitsVal ['9'] = 9 := by decide
        rw [this]; simp; ring
      · intro h; apply e7
        have : (p ++ [y] ++ [ch]).head? = (p ++ [y]).head? := head?_append_ne (by simp)
        rwa [this] at h
    · refine ⟨p ++ [y], ch, k, ?_, hp, hc, Or.inr h9, rfl, rfl, id⟩
      rw [List.length_append, List.length_singleton]
      unfold ninesLoop
      rw [hg, if_neg h9]

/-- Rounding up in the last place. -/
theorem roundUp_spec {s : List Char} (hs : Dig s) (hne : s ≠ []) (e : ℤ) :
    Dig (roundUp s e).1 ∧ (roundUp s e).1.length = s.length ∧
    (s.head? ≠ some '0' → (roundUp s e).1.head? ≠ some '0') ∧
    (((roundUp s e).2 = e ∧ digitsVal (roundUp s e).1 = digitsVal s + 1) ∨
     ((roundUp s e).2 = e + 1 ∧ digitsVal (roundUp s e).1 * 10 = digitsVal s + 1)) := by
  obtain ⟨p, ch, rfl⟩ : ∃ p ch, s = p ++ [ch] := ⟨_, _, (List.dropLast_append_getLast hne).symm⟩
  obtain ⟨p', ch', k', e1, e2, e3, e4, e5, e6, e7⟩ := ninesLoop_spec p ch 0 hs.left (hs ch (by simp))
  have e1' : ninesLoop ((p ++ [ch]).length - 1) (p ++ [ch]) = (p' ++ ch' :: List.replicate k' '0', p'.length) := by
    rw [← e1]; simp
  unfold roundUp
  rw [e1']
  dsimp only
  have hget : (p' ++ ch' :: List.replicate k' '0').getD p'.length ' ' = ch' := by
    rw [List.getD_eq_getElem?_getD, List.getElem?_append_right (le_refl _)]; simp
  rw [pow_zero, mul_one] at e6
  by_cases h : p'.length = 0 ∧ (p' ++ ch' :: List.replicate k' '0').getD 0 ' ' = '9'
  · rw [if_pos h]
    have hp' : p' = [] := List.length_eq_zero_iff.mp h.1
    subst hp'
    have h9 : ch' = '9' := by simpa using h.2
    subst h9
    dsimp only [List.nil_append] at *
    have hset : ('9' :: List.replicate k' '0').set 0 '1' = '1' :: List.replicate k' '0' := rfl
    rw [hset]
    refine ⟨?_, by simp at e5 ⊢; omega, fun _ => by simp, Or.inr ⟨rfl, ?_⟩⟩
    · intro x hx
      rcases List.mem_cons.mp hx with hx | hx
      · rw [hx]; decide
      · exact Dig.zeros k' x hx
    · rw [← e6, digitsVal_cons, digitsVal_zeros]
      have : digitsVal ['9'] = 9 := by decide
      rw [this]; simp; ring
  · rw [if_neg h, hget]
    have h9 : ch' ≠ '9' := by
      rcases e4 with e4 | e4
      · subst e4
        intro hc; apply h; exact ⟨rfl, by simpa using hc⟩
      · exact e4
    obtain ⟨n1, n2, n3⟩ := nextChar_spec e3 h9
    have hset : (p' ++ ch' :: List.replicate k' '0').set p'.length (nextChar ch') =
        p' ++ nextChar ch' :: List.replicate k' '0' := by
      rw [List.set_append_right _ _ (le_refl _)]; simp
    rw [hset]
    refine ⟨e2.append ?_, by simp at e5 ⊢; omega, ?_, Or.inl ⟨rfl, ?_⟩⟩
    · intro x hx
      rcases List.mem_cons.mp hx with hx | hx
      · rw [hx]; exact n1
      · exact Dig.zeros k' x hx
    · intro hh
      have := e7 hh
      rcases p' with - | ⟨z, zs⟩
      · simpa using n3
      · simpa using this
    · rw [← e6, digitsVal_append, digitsVal_cons, digitsVal_zeros, digitsVal_append p' [ch'], digitsVal_cons, digitsVal_nil, n2]
      simp; ring

theorem roundHalfUp_nat (V k : ℕ) (e : ℤ) (P r : ℕ) (hV : V / 10 ^ (k + 1) = P) (hr : V / 10 ^ k % 10 = r) :
    roundHalfUp (e + (k + 1 : ℕ)) ((V : ℚ) * (10 : ℚ) ^ e) =
      ((if 5 ≤ r then P + 1 else P : ℕ) : ℚ) * (10 : ℚ) ^ (e + (k + 1 : ℕ)) := by
  unfold roundHalfUp
  congr 1
  have hpos : (0 : ℚ) < (10 : ℚ) ^ (k + 1) := by positivity
  have h1 : (V : ℚ) * (10 : ℚ) ^ e / (10 : ℚ) ^ (e + (k + 1 : ℕ)) = (V : ℚ) / (10 : ℚ) ^ (k + 1) := by
    rw [zpow_add₀ (by norm_num), zpow_natCast]
    field_simp
  rw [h1]
  have hdm := Nat.div_add_mod V (10 ^ k)
  have hml := Nat.mod_lt V (show 0 < 10 ^ k by positivity)
  have hdd : V / 10 ^ k / 10 = P := by rw [Nat.div_div_eq_div_mul, ← pow_succ]; exact hV
  have hdm2 := Nat.div_add_mod (V / 10 ^ k) 10
  rw [hdd, hr] at hdm2
  have hr10 : r < 10 := by rw [← hr]; exact Nat.mod_lt _ (by norm_num)
  have hVe : V = (10 * P + r) * 10 ^ k + V % 10 ^ k := by rw [hdm2, Nat.mul_comm]; omega
  have key : ⌊(V : ℚ) / (10 : ℚ) ^ (k + 1) + 1 / 2⌋ = ((if 5 ≤ r then P + 1 else P : ℕ) : ℤ) := by
    rw [Int.floor_eq_iff]
    have e1 : (V : ℚ) / (10 : ℚ) ^ (k + 1) + 1 / 2 = (V + 5 * (10 : ℚ) ^ k) / (10 : ℚ) ^ (k + 1) := by
      rw [pow_succ]; field_simp; ring
    rw [e1, le_div_iff₀ hpos, div_lt_iff₀ hpos]
    have p1 : (10 : ℚ) ^ (k + 1) = ((10 ^ k * 10 : ℕ) : ℚ) := by push_cast; ring
    have p2 : (10 : ℚ) ^ k = ((10 ^ k : ℕ) : ℚ) := by push_cast; ring
    rw [p1, p2]
    generalize 10 ^ k = T at *
    have hexp : V = 10 * (P * T) + r * T + V % T := by rw [Nat.add_mul] at hVe; rw [Nat.mul_assoc] at hVe; exact hVe
    have hr9 : r * T ≤ 9 * T := Nat.mul_le_mul_right T (by omega)
    split
    · rename_i h
      have h5 : 5 * T ≤ r * T := Nat.mul_le_mul_right T h
      refine ⟨?_, ?_⟩
      · have : (P + 1) * (T * 10) ≤ V + 5 * T := by
          rw [show (P + 1) * (T * 10) = 10 * (P * T) + 10 * T by ring]; omega
        exact_mod_cast this
      · have : V + 5 * T < (P + 1 + 1) * (T * 10) := by
          rw [show (P + 1 + 1) * (T * 10) = 10 * (P * T) + 20 * T by ring]; omega
        exact_mod_cast this
    · rename_i h
      have h5 : r * T ≤ 4 * T := Nat.mul_le_mul_right T (by omega)
      refine ⟨?_, ?_⟩
      · have : P * (T * 10) ≤ V + 5 * T := by
          rw [show P * (T * 10) = 10 * (P * T) by ring]; omega
        exact_mod_cast this
      · have : V + 5 * T < (P + 1) * (T * 10) := by
          rw [show (P + 1) * (T * 10) = 10 * (P * T) + 10 * T by ring]; omega
        exact_mod_cast this
  rw [key]; norm_cast

theorem roundHalfUp_int (V : ℤ) (e : ℤ) : roundHalfUp e ((V : ℚ) * (10 : ℚ) ^ e) = (V : ℚ) * (10 : ℚ) ^ e := by
  unfold roundHalfUp
  congr 1
  rw [mul_div_cancel_right₀ _ (by positivity)]
  have : ⌊(V : ℚ) + 1 / 2⌋ = V := by
    rw [Int.floor_intCast_add]
    norm_num
  rw [this]

end WD
