import Verif.Proofs.Print
import Verif.Proofs.Round
/-
  `get_output_string` and the two notations.
-/
namespace WD
open DW Util

theorem outputString_spec {c : Cfg} {x : DW} (hx : WF c x) {nd : ℕ} (hnd : 1 ≤ nd) :
    ∃ s e', outputString c x (ilogb x) nd = some (s, e') ∧ Dig s ∧ s ≠ [] ∧ s.length ≤ nd ∧
      (e' = ilogb x ∨ e' = ilogb x + 1) ∧ (x.isZero = false → s.head? ≠ some '0') ∧
      (x.isZero = true → digitsVal s = 0) ∧
      (digitsVal s : ℚ) * (10 : ℚ) ^ (e' - (s.length - 1)) = roundHalfUp (ilogb x - nd + 1) |x.val c| := by
  obtain ⟨F, f1, f2, f3, f4, f5⟩ := outputDigits_spec hx
  have hN := c.three_le_N
  have hed := c.ed_pos
  obtain ⟨-, -, ho⟩ := orderOf_digits x.d0
  have hE : ilogb x = x.exp + ((orderOf x.d0 : ℤ) - 1) := rfl
  have hlx : x.lexp c = ilogb x - F.length + 1 := by
    rw [hE, f2]; unfold lexp
    have : ((c.N - 1 : ℕ) : ℤ) = (c.N : ℤ) - 1 := by omega
    rw [Nat.cast_add, Nat.cast_mul, this]; ring
  have habs : |x.val c| = (digitsVal F : ℚ) * (10 : ℚ) ^ (x.lexp c) := by
    rw [abs_val]; unfold mant; rw [f3]
  have hzF : x.isZero = true → digitsVal F = 0 := by
    intro hz
    have := hx.isZero_iff.mp hz
    rw [← abs_eq_zero, habs] at this
    rcases mul_eq_zero.mp this with h | h
    · exact_mod_cast h
    · exact absurd h (by positivity)
  set ne := min (nd / c.ed + 2) c.N with hne
  have hne1 : 1 ≤ ne := by rw [hne]; exact le_min (Nat.le_add_left_of_le (by norm_num)) (by omega)
  have hout := f5 ne hne1
  set L := orderOf x.d0 + c.ed * (ne - 1) with hL
  have hcase : (F.length ≤ L) ∨ (nd < L ∧ nd < F.length) := by
    rcases Nat.le_total c.N (nd / c.ed + 2) with h | h
    · left; rw [f2, hL, hne, Nat.min_eq_right h]
    · right
      have hne' : ne = nd / c.ed + 2 := by rw [hne, Nat.min_eq_left h]
      have h1 : nd < L := by
        rw [hL, hne', show nd / c.ed + 2 - 1 = nd / c.ed + 1 by omega, Nat.mul_add]
        have := Nat.div_add_mod nd c.ed
        have := Nat.mod_lt nd hed
        omega
      refine ⟨h1, lt_of_lt_of_le h1 ?_⟩
      rw [hL, f2]
      have := Nat.mul_le_mul_left c.ed (show ne - 1 ≤ c.N - 1 by omega)
      omega
  have hlen : (F.take L).length > nd ↔ F.length > nd := by
    rw [List.length_take]; omega
  by_cases hbig : F.length > nd
  · have hget : (F.take L).getD nd '0' = F.getD nd '0' := by
      have : nd < L := by omega
      simp [List.getD_eq_getElem?_getD, List.getElem?_take, this]
    have htk : (F.take L).take nd = F.take nd := by
      rw [List.take_take]; congr 1; omega
    have hP : Dig (F.take nd) := f1.take nd
    have hPl : (F.take nd).length = nd := List.length_take_of_le (by omega)
    have hPne : F.take nd ≠ [] := by intro h; rw [h] at hPl; simp at hPl; omega
    obtain ⟨k, hk⟩ : ∃ k, F.length = nd + (k + 1) := ⟨F.length - nd - 1, by omega⟩
    have hsplit : F = F.take nd ++ F.drop nd := (List.take_append_drop nd F).symm
    obtain ⟨r, rest, hr⟩ : ∃ r rest, F.drop nd = r :: rest := by
      apply List.exists_cons_of_ne_nil
      intro h; have := congrArg List.length h; simp at this; omega
    have hrl : rest.length = k := by
      have := congrArg List.length hr; rw [List.length_drop] at this; simp at this; omega
    have hrd : r.isDigit = true := f1 r (by rw [hsplit, hr]; simp)
    have hrest : Dig rest := fun ch h => f1 ch (by rw [hsplit, hr]; simp [h])
    have hFr : F.getD nd '0' = r := by
      have h1 : F[nd]? = (F.drop nd)[0]? := by rw [List.getElem?_drop, Nat.add_zero]
      rw [List.getD_eq_getElem?_getD, h1, hr]; rfl
    set P := digitsVal (F.take nd) with hPdef
    have hV : digitsVal F = (10 * P + (r.toNat - 48)) * 10 ^ k + digitsVal rest := by
      conv_lhs => rw [hsplit]
      rw [digitsVal_append, hr, digitsVal_cons, List.length_cons, hrl, pow_succ, ← hPdef]; ring
    have hrestlt : digitsVal rest < 10 ^ k := by have := digitsVal_lt hrest; rwa [hrl] at this
    have hq : digitsVal F / 10 ^ k = 10 * P + (r.toNat - 48) := by
      rw [hV, Nat.add_comm, Nat.add_mul_div_right _ _ (by positivity), Nat.div_eq_of_lt hrestlt, Nat.zero_add]
    have hr10 := digit_lt hrd
    have hround := roundHalfUp_nat (digitsVal F) k (x.lexp c) P (r.toNat - 48)
      (by rw [pow_succ, ← Nat.div_div_eq_div_mul, hq]; omega) (by rw [hq]; omega)
    have hex : x.lexp c + ((k + 1 : ℕ) : ℤ) = ilogb x - nd + 1 := by rw [hlx, hk]; push_cast; ring
    rw [hex, ← habs] at hround
    unfold outputString
    rw [hout]
    simp only [Option.bind_eq_bind, Option.bind_some]
    rw [if_pos (hlen.mpr hbig), hget, hFr, htk]
    by_cases h5 : r.toNat - 48 ≥ 5
    · rw [if_pos h5]
      rw [if_pos h5] at hround
      obtain ⟨u1, u2, u3, u4⟩ := roundUp_spec hP hPne (ilogb x)
      refine ⟨(roundUp (F.take nd) (ilogb x)).1, (roundUp (F.take nd) (ilogb x)).2, rfl, u1, ?_, by rw [u2, hPl], ?_, ?_, ?_, ?_⟩
      · intro h; rw [h, hPl] at u2; simp at u2; omega
      · rcases u4 with ⟨a, -⟩ | ⟨a, -⟩
        · exact Or.inl a
        · exact Or.inr a
      · intro hz; apply u3
        have := f4 hz
        rw [hsplit, head?_append_ne hPne] at this
        exact this
      · intro hz
        have := hzF hz
        rw [hV] at this
        have h2 : 0 < (10 * P + (r.toNat - 48)) * 10 ^ k := by
          have : 0 < 10 * P + (r.toNat - 48) := by omega
          positivity
        omega
      · rw [hround, u2, hPl]
        rcases u4 with ⟨a, b⟩ | ⟨a, b⟩
        · rw [a, b]; congr 2; ring
        · rw [a, ← b]
          push_cast
          rw [show ilogb x + 1 - ((nd : ℤ) - 1) = (ilogb x - nd + 1) + 1 by ring, zpow_add₀ (by norm_num)]
          ring
    · rw [if_neg h5]
      rw [if_neg (by omega)] at hround
      refine ⟨_, _, rfl, hP, hPne, by rw [hPl], Or.inl rfl, ?_, ?_, ?_⟩
      · intro hz
        have := f4 hz
        rw [hsplit, head?_append_ne hPne] at this
        exact this
      · intro hz
        have := hzF hz
        rw [hV] at this
        have h2 : (10 * P + (r.toNat - 48)) * 10 ^ k = 0 := by omega
        rcases Nat.mul_eq_zero.mp h2 with h | h
        · show P = 0
          omega
        · exact absurd h (by positivity)
      · rw [hround, hPl]; congr 2; ring
  · have hFL : F.length ≤ L := by omega
    unfold outputString
    rw [hout]
    simp only [Option.bind_eq_bind, Option.bind_some]
    rw [if_neg (fun h => hbig (hlen.mp h)), List.take_of_length_le hFL]
    have hFne : F ≠ [] := by intro h; rw [h] at f2; simp at f2; omega
    refine ⟨_, _, rfl, f1, hFne, by omega, Or.inl rfl, f4, hzF, ?_⟩
    rw [show ilogb x - ((F.length : ℤ) - 1) = x.lexp c by rw [hlx]; ring, ← habs]
    obtain ⟨j, hj⟩ : ∃ j, nd = F.length + j := ⟨nd - F.length, by omega⟩
    have hex : x.lexp c = (ilogb x - nd + 1) + (j : ℤ) := by rw [hlx, hj]; push_cast; ring
    have : |x.val c| = (((digitsVal F * 10 ^ j : ℕ) : ℤ) : ℚ) * (10 : ℚ) ^ (ilogb x - nd + 1) := by
      rw [habs, hex, zpow_add₀ (by norm_num), zpow_natCast]; push_cast; ring
    rw [this, roundHalfUp_int]

/-- The digits of the text in front of the exponent: digits, point, digits. -/
structure Body (s a b : List Char) : Prop where
  eq : s = a ++ '.' :: b
  da : Dig a
  db : Dig b
  ne : a ≠ []

theorem body_strip {s a b : List Char} (h : Body s a b) : Body (stripTrailing s) a (stripTrailing b) := by
  refine ⟨by rw [h.eq, stripTrailing_point], h.da, ?_, h.ne⟩
  obtain ⟨k, hk⟩ := stripTrailing_spec b
  have := h.db; rw [hk] at this; exact this.left

theorem body_strip_val (a b : List Char) (e : ℤ) : nfVal a (stripTrailing b) e = nfVal a b e := by
  obtain ⟨k, hk⟩ := stripTrailing_spec b
  unfold nfVal
  conv_rhs => rw [hk, ← List.append_assoc, digitsVal_append_zeros, List.length_append, List.length_replicate]
  rw [zpow_shift k (e - (stripTrailing b).length)]
  push_cast
  rw [show e - ((stripTrailing b).length + k : ℤ) = e - (stripTrailing b).length - k by ring]; ring

theorem nfVal_pad (a b : List Char) (k : ℕ) (e : ℤ) : nfVal a (b ++ List.replicate k '0') e = nfVal a b e := by
  unfold nfVal
  rw [← List.append_assoc, digitsVal_append_zeros, List.length_append, List.length_replicate, zpow_shift k (e - b.length)]
  push_cast
  rw [show e - (b.length + k : ℤ) = e - b.length - k by ring]; ring

theorem specialExtend_some {s out : List Char} {p : ℕ} (h : specialExtend s p = some out) :
    ∃ k, out = s ++ List.replicate k '0' := by
  unfold specialExtend at h
  split at h
  · split at h
    · exact ⟨_, (Option.some.inj h).symm⟩
    · dsimp only at h
      split at h
      · exact ⟨_, (Option.some.inj h).symm⟩
      · exact absurd h (by simp)
  · split at h
    · exact ⟨_, (Option.some.inj h).symm⟩
    · exact absurd h (by simp)

/-- The final manipulation keeps the value: the point goes if nothing follows it, or zeros are appended. -/
theorem finish_spec {s a b out : List Char} {p : ℕ} {sp tr : Bool} (h : Body s a b)
    (ho : finishDigits s p sp tr = some out) :
    ∃ fp : Option (List Char), out = a ++ DecText.pointChars fp ∧ Dig (fp.getD []) ∧
      (∀ e, nfVal a (fp.getD []) e = nfVal a b e) ∧ ((sp = false ∨ tr = false) → fp.getD [] = b) ∧
      (fp = none → sp = false) := by
  unfold finishDigits at ho
  cases sp
  · simp only [Bool.false_eq_true, if_false] at ho
    have ho := Option.some.inj ho
    rcases List.eq_nil_or_concat b with hb | ⟨b', y, hb⟩
    · subst hb
      rw [h.eq] at ho
      simp at ho
      exact ⟨none, by simpa [DecText.pointChars] using ho.symm, by intro ch hh; simp at hh, fun _ => rfl, fun _ => rfl, fun _ => rfl⟩
    · have hlast : s.getLast? = some y := by
        rw [h.eq, hb, List.concat_eq_append, ← List.cons_append, ← List.append_assoc, List.getLast?_concat]
      have hy : y ≠ '.' := h.db.ne (x := '.') (by decide) y (by rw [hb]; simp)
      rw [hlast, if_neg (by simpa using hy)] at ho
      exact ⟨some b, by rw [← ho, h.eq]; rfl, h.db, fun _ => rfl, fun _ => rfl, fun hh => absurd hh (by simp)⟩
  · simp only [if_true] at ho
    cases tr
    · simp only [Bool.false_eq_true, if_false] at ho
      have ho := Option.some.inj ho
      exact ⟨some b, by rw [← ho, h.eq]; rfl, h.db, fun _ => rfl, fun _ => rfl, fun hh => absurd hh (by simp)⟩
    · simp only [if_true] at ho
      obtain ⟨k, hk⟩ := specialExtend_some ho
      refine ⟨some (b ++ List.replicate k '0'), by rw [hk, h.eq]; simp [DecText.pointChars], h.db.append (Dig.zeros k),
        fun e => nfVal_pad a b k e, fun hh => ?_, fun hh => absurd hh (by simp)⟩
      rcases hh with hh | hh <;> exact absurd hh (by decide)

theorem finish_isSome (s : List Char) (p : ℕ) (sp tr : Bool) (h : sp = false ∨ tr = false) :
    (finishDigits s p sp tr).isSome := by
  unfold finishDigits
  cases sp
  · simp
  · rcases h with h | h
    · exact absurd h (by decide)
    · simp [h]

theorem expChars_spec (e : ℤ) (up : Bool) (he : e.natAbs < 10 ^ 20) :
    ∃ d, expChars e up = some (DecText.expChars (some (up, some (decide (e < 0)), d))) ∧ d ≠ [] ∧ Dig d ∧
      (digitsVal d : ℤ) = e.natAbs ∧ 3 ∣ d.length := by
  obtain ⟨s, h1, h2, h3, -, -, h6, -⟩ := blc10 20 20 e.natAbs he le_rfl (by norm_num)
  refine ⟨List.replicate (if s.length % 3 ≠ 0 then 3 - s.length % 3 else 0) '0' ++ s, ?_, by simp [h6], (Dig.zeros _).append h2, ?_, ?_⟩
  · unfold DW.expChars
    dsimp only
    rw [h1]
    simp only [Option.bind_eq_bind, Option.bind_some, DecText.expChars]
    by_cases hn : e < 0 <;> simp [hn, DecText.signChars]
  · rw [digitsVal_append, digitsVal_zeros, h3]; simp
  · rw [List.length_append, List.length_replicate]
    split <;> omega

/-- Scientific notation. -/
theorem wrScientific_spec {s : List Char} {e : ℤ} {p : ℕ} {sp up tr : Bool} {out : List Char} (hs : Dig s) (hne : s ≠ [])
    (he : e.natAbs < 10 ^ 20) (ho : wrScientific s e p sp up tr = some out) :
    ∃ t : DecText, t.sign = none ∧ t.Valid ∧ out = t.chars ∧ t.exponent = e ∧ t.ip = s.take 1 ∧
      t.value = (digitsVal s : ℚ) * (10 : ℚ) ^ (e - (s.length - 1)) ∧
      (tr = false → s.length ≤ p + 1 → t.frac.length = p) := by
  obtain ⟨x, xs, rfl⟩ := List.exists_cons_of_ne_nil hne
  unfold wrScientific at ho
  dsimp only at ho
  obtain ⟨xs', k, hxs, hx1, hx2⟩ : ∃ xs' k, (if p > (x :: xs).length - 1 then (x :: xs) ++ List.replicate (p - ((x :: xs).length - 1)) '0' else x :: xs) = x :: xs' ∧
      xs' = xs ++ List.replicate k '0' ∧ (xs.length ≤ p → xs'.length = p) := by
    split
    · exact ⟨_, _, rfl, rfl, fun h => by simp; omega⟩
    · rename_i h
      exact ⟨xs, 0, rfl, by simp, fun hh => by simp at h; omega⟩
  rw [hxs] at ho
  have hins : insertAt 1 '.' (x :: xs') = [x] ++ '.' :: xs' := rfl
  rw [hins] at ho
  have dxs : Dig xs := fun ch h => hs ch (List.mem_cons_of_mem _ h)
  have dxs' : Dig xs' := by rw [hx1]; exact dxs.append (Dig.zeros k)
  have hB0 : Body ([x] ++ '.' :: xs') [x] xs' :=
    ⟨rfl, fun ch h => by rcases List.mem_singleton.mp h with rfl; exact hs _ List.mem_cons_self, dxs', by simp⟩
  obtain ⟨b, hBody, hbv, hbt⟩ : ∃ b, Body (if tr = true then stripTrailing ([x] ++ '.' :: xs') else [x] ++ '.' :: xs') [x] b ∧
      (∀ e, nfVal [x] b e = nfVal [x] xs' e) ∧ (tr = false → b = xs') := by
    cases tr
    · exact ⟨xs', hB0, fun _ => rfl, fun _ => rfl⟩
    · exact ⟨stripTrailing xs', body_strip hB0, fun e => body_strip_val _ _ e, fun h => absurd h (by decide)⟩
  rw [Option.bind_eq_bind, Option.bind_eq_some_iff] at ho
  obtain ⟨o1, ho1, ho2⟩ := ho
  obtain ⟨d, hd1, hd2, hd3, hd4, -⟩ := expChars_spec e up he
  rw [hd1, Option.bind_some] at ho2
  have ho2 := Option.some.inj ho2
  obtain ⟨fp, w1, w2, w3, w4, -⟩ := finish_spec hBody ho1
  have hex : DecText.exponent { sign := none, ip := [x], fp := fp, ex := some (up, some (decide (e < 0)), d) } = e := by
    unfold DecText.exponent
    dsimp only
    rw [hd4]
    by_cases hn : e < 0
    · simp only [hn, decide_true, if_true]; omega
    · simp only [hn, decide_false, Option.some.injEq, Bool.false_eq_true, if_false]; omega
  refine ⟨{ sign := none, ip := [x], fp := fp, ex := some (up, some (decide (e < 0)), d) }, rfl, ⟨hBody.da, w2, by simp, ?_⟩, ?_, hex, rfl, ?_, ?_⟩
  · intro u s' d' h
    simp only [Option.some.injEq, Prod.mk.injEq] at h
    obtain ⟨-, -, rfl⟩ := h
    exact ⟨hd2, hd3⟩
  · rw [← ho2, w1]; simp [DecText.chars, DecText.signChars]
  · have hv : DecText.value { sign := none, ip := [x], fp := fp, ex := some (up, some (decide (e < 0)), d) } = nfVal [x] (fp.getD []) e := by
      unfold DecText.value
      rw [hex]; unfold nfVal DecText.frac; simp
    rw [hv, w3, hbv, hx1, nfVal_pad]
    unfold nfVal
    simp
  · intro htr hl
    show (fp.getD []).length = p
    rw [w4 (Or.inr htr), hbt htr]
    exact hx2 (by simpa using hl)

theorem wrScientific_isSome {s : List Char} {e : ℤ} {p : ℕ} {sp up tr : Bool} (he : e.natAbs < 10 ^ 20)
    (h : sp = false ∨ tr = false) : (wrScientific s e p sp up tr).isSome := by
  unfold wrScientific
  dsimp only
  obtain ⟨o, ho⟩ := Option.isSome_iff_exists.mp (finish_isSome (if tr = true then stripTrailing (insertAt 1 '.'
    (if p > s.length - 1 then s ++ List.replicate (p - (s.length - 1)) '0' else s)) else insertAt 1 '.'
    (if p > s.length - 1 then s ++ List.replicate (p - (s.length - 1)) '0' else s)) p sp tr h)
  obtain ⟨d, hd1, -⟩ := expChars_spec e up he
  rw [ho, hd1]; rfl

/-- Fixed notation. -/
theorem wrFixed_spec {s : List Char} {e : ℤ} {p : ℕ} {sp tr : Bool} {out : List Char} (hs : Dig s) (hne : s ≠ [])
    (ho : wrFixed s e p sp tr = some out) :
    ∃ t : DecText, t.sign = none ∧ t.ex = none ∧ t.Valid ∧ out = t.chars ∧
      t.value = (digitsVal s : ℚ) * (10 : ℚ) ^ (e - (s.length - 1)) ∧
      (tr = false → 0 ≤ e → (s.length : ℤ) ≤ e + 1 + p → t.frac.length = p) ∧
      (tr = false → e < 0 → (t.frac.length : ℤ) = max (p : ℤ) (s.length - (e + 1))) := by
  unfold wrFixed at ho
  dsimp only at ho
  obtain ⟨w, a, b, hw, hB0, hval, hf1, hf2⟩ : ∃ w a b, (if e < 0 then
      '0' :: '.' :: (List.replicate (-(e + 1)).toNat '0' ++ s) ++ List.replicate (p - (s.length + (-(e + 1)).toNat)) '0'
      else insertAt (e + 1).toNat '.' (if s.length < (e + 1).toNat then s ++ List.replicate ((e + 1).toNat - s.length) '0' else s) ++
        List.replicate (p - ((insertAt (e + 1).toNat '.' (if s.length < (e + 1).toNat then s ++ List.replicate ((e + 1).toNat - s.length) '0' else s)).length - 1 - (e + 1).toNat)) '0') = w ∧
      Body w a b ∧ nfVal a b 0 = (digitsVal s : ℚ) * (10 : ℚ) ^ (e - (s.length - 1)) ∧
      (0 ≤ e → (s.length : ℤ) ≤ e + 1 + p → b.length = p) ∧
      (e < 0 → (b.length : ℤ) = max (p : ℤ) (s.length - (e + 1))) := by
    by_cases hneg : e < 0
    · rw [if_pos hneg]
      refine ⟨_, ['0'], (List.replicate (-(e + 1)).toNat '0' ++ s) ++ List.replicate (p - (s.length + (-(e + 1)).toNat)) '0',
        rfl, ⟨rfl, ?_, ((Dig.zeros _).append hs).append (Dig.zeros _), by simp⟩, ?_, fun h => by omega, fun _ => ?_⟩
      · intro ch h; rcases List.mem_singleton.mp h with rfl; decide
      · rw [nfVal_pad]; unfold nfVal
        rw [← List.append_assoc, digitsVal_append]
        have : digitsVal (['0'] ++ List.replicate (-(e + 1)).toNat '0') = 0 := by
          rw [← List.replicate_one, ← List.replicate_add]; exact digitsVal_zeros _
        rw [this, Nat.zero_mul, Nat.zero_add]
        congr 2
        rw [List.length_append, List.length_replicate, Nat.cast_add, Int.toNat_of_nonneg (by omega)]; ring
      · rw [List.length_append, List.length_append, List.length_replicate, List.length_replicate]
        omega
    · rw [if_neg hneg]
      obtain ⟨n, hn⟩ : ∃ n : ℕ, e = n := ⟨e.toNat, by omega⟩
      have hn1 : (e + 1).toNat = n + 1 := by omega
      rw [hn1]
      obtain ⟨s1, k, hs1, hk⟩ : ∃ s1 k, (if s.length < n + 1 then s ++ List.replicate (n + 1 - s.length) '0' else s) = s1 ∧
          s1 = s ++ List.replicate k '0' ∧ n + 1 ≤ s1.length ∧ (s1.length = s.length ∨ s1.length = n + 1) := by
        split
        · exact ⟨_, _, rfl, rfl, by simp; omega, by right; simp; omega⟩
        · exact ⟨s, 0, rfl, by simp, by omega, Or.inl rfl⟩
      obtain ⟨hk1, hk2, hk3⟩ := hk
      rw [hs1]
      have ds1 : Dig s1 := by rw [hk1]; exact hs.append (Dig.zeros k)
      have hil : (insertAt (n + 1) '.' s1).length - 1 - (n + 1) = s1.length - (n + 1) := by
        unfold insertAt; simp; omega
      rw [hil]
      refine ⟨_, s1.take (n + 1), s1.drop (n + 1) ++ List.replicate (p - (s1.length - (n + 1))) '0', rfl,
        ⟨by unfold insertAt; simp, ds1.take _, (ds1.drop _).append (Dig.zeros _), ?_⟩, ?_, fun _ hl => ?_, fun h => absurd h hneg⟩
      · intro h; have := congrArg List.length h; rw [List.length_take] at this; simp only [List.length_nil] at this; omega
      · rw [nfVal_pad]; unfold nfVal
        rw [List.take_append_drop, List.length_drop, hk1, digitsVal_append_zeros, List.length_append, List.length_replicate]
        rw [hk1, List.length_append, List.length_replicate] at hk2
        rw [zpow_shift k (e - (s.length - 1)), Nat.cast_sub hk2, hn]
        push_cast
        rw [show (n : ℤ) - (s.length - 1) - k = 0 - (s.length + k - (n + 1)) by ring]; ring
      · rw [List.length_append, List.length_drop, List.length_replicate]
        omega
  rw [hw] at ho
  obtain ⟨b2, hBody, hbv, hbt⟩ : ∃ b2, Body (if tr = true then stripTrailing w else w) a b2 ∧
      (∀ e, nfVal a b2 e = nfVal a b e) ∧ (tr = false → b2 = b) := by
    cases tr
    · exact ⟨b, hB0, fun _ => rfl, fun _ => rfl⟩
    · exact ⟨stripTrailing b, body_strip hB0, fun e => body_strip_val _ _ e, fun h => absurd h (by decide)⟩
  obtain ⟨fp, w1, w2, w3, w4, -⟩ := finish_spec hBody ho
  refine ⟨{ sign := none, ip := a, fp := fp, ex := none }, rfl, rfl, ⟨hBody.da, w2, ?_, ?_⟩, ?_, ?_, ?_, ?_⟩
  · intro h; exact hBody.ne (List.append_eq_nil_iff.mp h).1
  · intro _ _ _ h; simp at h
  · rw [w1]; simp [DecText.chars, DecText.signChars, DecText.expChars]
  · have hv : DecText.value { sign := none, ip := a, fp := fp, ex := none } = nfVal a (fp.getD []) 0 := by
      unfold DecText.value nfVal DecText.frac DecText.exponent; simp
    rw [hv, w3, hbv, hval]
  · intro htr h0 hl
    show (fp.getD []).length = p
    rw [w4 (Or.inr htr), hbt htr]; exact hf1 h0 hl
  · intro htr h0
    show ((fp.getD []).length : ℤ) = _
    rw [w4 (Or.inr htr), hbt htr]; exact hf2 h0

end WD
