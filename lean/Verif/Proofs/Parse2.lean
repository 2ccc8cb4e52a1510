import Verif.Proofs.Parse
import Mathlib.Data.List.TakeWhile
/-
  Normalisation steps of `rd_string` and the limbs they lead to.
-/
namespace WD
open DW

theorem zpow_shift (n : ℕ) (e : ℤ) : (10 : ℚ) ^ e = (10 : ℚ) ^ n * (10 : ℚ) ^ (e - n) := by
  rw [← zpow_natCast, ← zpow_add₀ (by norm_num)]; congr 1; ring

/-- Leading zeros and the decimal point. -/
theorem normPoint_spec (ip : List Char) (fp : Option (List Char)) (e : ℤ) (dip : Dig ip) (dfp : Dig (fp.getD []))
    (hne : ip ++ fp.getD [] ≠ []) :
    let m := ip ++ DecText.pointChars fp
    let t := m.dropWhile (· == '0')
    ((t.length ≠ m.length ∧ t = []) ∧ digitsVal (ip ++ fp.getD []) = 0) ∨
    (¬ (t.length ≠ m.length ∧ t = []) ∧ normPoint t e = none ∧ digitsVal (ip ++ fp.getD []) = 0) ∨
    (¬ (t.length ≠ m.length ∧ t = []) ∧ ∃ s e' a b, normPoint t e = some (s, e') ∧ NF s a b ∧
      nfVal a b e' = (digitsVal (ip ++ fp.getD []) : ℚ) * (10 : ℚ) ^ (e - (fp.getD []).length)) := by
  intro m t
  rcases fp with - | f
  · -- no point
    have hm : m = ip := by simp [m, DecText.pointChars]
    have hne' : ip ≠ [] := by simpa using hne
    rcases ht : t with - | ⟨x, xs⟩
    · left
      have hz : digitsVal ip = 0 := by
        have := digitsVal_dropWhile ip
        have h2 : ip.dropWhile (· == '0') = [] := by rw [← hm]; exact ht
        rw [h2] at this; exact this.symm
      refine ⟨⟨?_, rfl⟩, by simpa using hz⟩
      rw [hm]; simp only [List.length_nil]; intro h
      exact hne' (List.length_eq_zero_iff.mp h.symm)
    · right; right
      have ht' : ip.dropWhile (· == '0') = x :: xs := by rw [← hm]; exact ht
      have hd : Dig (x :: xs) := by rw [← ht']; exact dip.dropWhile
      refine ⟨by simp, x :: xs ++ ['.'], e, x :: xs, [], ?_, ⟨rfl, hd, by intro ch h; simp at h, by simp, ?_⟩, ?_⟩
      · unfold normPoint
        rw [contains_false (hd.ne (by decide)), if_neg (by simp)]
      · simpa using dropWhile_head ht'
      · unfold nfVal
        rw [← ht', List.append_nil, digitsVal_dropWhile]; simp
  · -- with a point
    have dfp : Dig f := dfp
    have hm : m = ip ++ '.' :: f := rfl
    have ht : t = ip.dropWhile (· == '0') ++ '.' :: f := by
      show (ip ++ '.' :: f).dropWhile _ = _
      rw [List.dropWhile_append]
      split
      · rename_i h
        have h' : ip.dropWhile (· == '0') = [] := by simpa using h
        rw [h']; simp
      · rfl
    have htn : ¬ (t.length ≠ m.length ∧ t = []) := by rw [ht]; simp
    right
    have hc : t.contains '.' = true := by rw [ht]; exact contains_mid _ _ _
    have hst : stripTrailing t = ip.dropWhile (· == '0') ++ '.' :: stripTrailing f := by
      rw [ht, stripTrailing_point]
    obtain ⟨k, hk⟩ := stripTrailing_spec f
    set f' := stripTrailing f with hf'
    have df' : Dig f' := by
      have : Dig (f' ++ List.replicate k '0') := by rw [← hk]; exact dfp
      exact this.left
    have hlen : (f.length : ℤ) = f'.length + k := by rw [hk]; simp
    have hval : digitsVal (ip ++ f) = digitsVal (ip ++ f') * 10 ^ k := by
      rw [hk, ← List.append_assoc, digitsVal_append_zeros]
    have hq : (digitsVal (ip ++ (some f).getD []) : ℚ) * (10 : ℚ) ^ (e - (((some f).getD []).length : ℕ)) =
        (digitsVal (ip ++ f') : ℚ) * (10 : ℚ) ^ (e - f'.length) := by
      simp only [Option.getD_some]
      rw [hval, zpow_shift k (e - f'.length), hlen]
      push_cast
      rw [show e - (f'.length : ℤ) - k = e - (f'.length + k) by ring]; ring
    rw [hq]
    rcases hi : ip.dropWhile (· == '0') with - | ⟨x, xs⟩
    · have hip0 : digitsVal ip = 0 := by rw [← digitsVal_dropWhile, hi]; rfl
      rw [hi, List.nil_append] at hst
      by_cases hfn : f' = []
      · left
        refine ⟨htn, ?_, ?_⟩
        · unfold normPoint
          rw [if_pos hc]; dsimp only; rw [hst, if_pos (by rw [hfn])]
        · simp only [Option.getD_some]
          rw [hval, hfn, List.append_nil, hip0, zero_mul]
      · right
        have hdr : f'.dropWhile (· == '0') ≠ [] := by
          intro h
          have h1 := (List.dropWhile_eq_nil_iff (p := (· == '0'))).mp h
          have h2 := stripTrailing_last (l := f) hfn
          apply h2
          have := h1 _ (List.getLast_mem hfn)
          simpa using this
        obtain ⟨y, ys, hy⟩ := List.exists_cons_of_ne_nil hdr
        have hd : Dig (y :: ys) := by rw [← hy]; exact df'.dropWhile
        refine ⟨htn, y :: '.' :: ys, e - ((f'.takeWhile (· == '0')).length + 1), [y], ys, ?_,
          ⟨rfl, fun ch h => ?_, fun ch h => hd ch (List.mem_cons_of_mem _ h), by simp, ?_⟩, ?_⟩
        · unfold normPoint
          rw [if_pos hc]; dsimp only
          rw [hst, if_neg (by simp [hfn]), if_pos (by simp)]
          simp only [List.drop_succ_cons, List.drop_zero]
          rw [hy]; rfl
        · rcases List.mem_singleton.mp h with rfl; exact hd _ List.mem_cons_self
        · simpa using dropWhile_head hy
        · unfold nfVal
          have hl := congrArg List.length (List.takeWhile_append_dropWhile (p := (· == '0')) (l := f'))
          rw [List.length_append, hy, List.length_cons] at hl
          have e1 : digitsVal ([y] ++ ys) = digitsVal (ip ++ f') := by
            rw [digitsVal_append ip, hip0, ← digitsVal_dropWhile f', hy]; simp
          rw [e1]
          congr 2
          rw [← hl]; push_cast; ring
    · right
      have hd : Dig (x :: xs) := by rw [← hi]; exact dip.dropWhile
      rw [hi] at hst
      have hx := dropWhile_head hi
      refine ⟨htn, x :: xs ++ '.' :: f', e, x :: xs, f', ?_, ⟨rfl, hd, df', by simp, by simpa using hx⟩, ?_⟩
      · unfold normPoint
        rw [if_pos hc]; dsimp only
        have h1 : ¬ ((x :: xs ++ '.' :: f') = ['.']) := by simp
        have h2 : ¬ ((x :: xs ++ '.' :: f').head? = some '.') := by
          have := hd.ne (x := '.') (by decide) x List.mem_cons_self
          simpa using this
        rw [hst, if_neg h1, if_neg h2]
      · unfold nfVal
        rw [digitsVal_append, ← hi, digitsVal_dropWhile, ← digitsVal_append]

theorem insert_erase_right {a b : List Char} {n : ℕ} (hn : n ≤ b.length) :
    (insertAt (a.length + 1 + n) '.' (a ++ '.' :: b)).eraseIdx a.length = (a ++ b.take n) ++ '.' :: b.drop n := by
  unfold insertAt
  have h1 : (a ++ '.' :: b).take (a.length + 1 + n) = a ++ '.' :: b.take n := by
    rw [List.take_append, List.take_of_length_le (by omega)]
    rw [show a.length + 1 + n - a.length = n + 1 by omega, List.take_succ_cons]
  have h2 : (a ++ '.' :: b).drop (a.length + 1 + n) = b.drop n := by
    rw [List.drop_append, List.drop_eq_nil_of_le (by omega)]
    rw [show a.length + 1 + n - a.length = n + 1 by omega, List.drop_succ_cons, List.nil_append]
  rw [h1, h2, List.append_assoc, List.eraseIdx_append_of_length_le (by omega), Nat.sub_self]
  simp

theorem insert_erase_left {a b : List Char} {k : ℕ} (hk : k ≤ a.length) :
    (insertAt k '.' (a ++ '.' :: b)).eraseIdx (a.length + 1) = a.take k ++ '.' :: (a.drop k ++ b) := by
  unfold insertAt
  rw [List.take_append_of_le_length hk, List.drop_append_of_le_length hk]
  have hl : (a.take k).length = k := List.length_take_of_le hk
  rw [List.eraseIdx_append_of_length_le (by omega), hl]
  obtain ⟨j, hj⟩ : ∃ j, a.length + 1 - k = j + 1 := ⟨a.length - k, by omega⟩
  rw [hj, List.eraseIdx_cons_succ, List.eraseIdx_append_of_length_le (by simp; omega)]
  have : j - (a.drop k).length = 0 := by simp; omega
  rw [this]; simp

theorem head?_append_ne {a b : List Char} (h : a ≠ []) : (a ++ b).head? = a.head? := by
  rcases a with - | ⟨x, xs⟩
  · exact absurd rfl h
  · rfl

/-- The exponent becomes a multiple of the limb digits. -/
theorem shiftPoint_spec (c : Cfg) {s a b : List Char} (e : ℤ) (h : NF s a b) (hed : 0 < c.ed) :
    ∃ a' b', NF (shiftPoint c s e).1 a' b' ∧ (c.ed : ℤ) ∣ (shiftPoint c s e).2 ∧
      nfVal a' b' (shiftPoint c s e).2 = nfVal a b e := by
  have hE : (c.ed : ℤ) > 0 := by exact_mod_cast hed
  obtain ⟨n, hn, hdv⟩ : ∃ n : ℕ, (if e.tmod c.ed ≠ 0 then (if e < 0 then e.tmod c.ed + c.ed else e.tmod c.ed).toNat else 0) = n
      ∧ (c.ed : ℤ) ∣ e - n := by
    refine ⟨_, rfl, ?_⟩
    have h1 := Int.tmod_add_mul_tdiv e c.ed
    by_cases hm : e.tmod c.ed = 0
    · rw [if_neg (by simpa using hm)]
      rw [hm] at h1
      exact ⟨e.tdiv c.ed, by push_cast; linarith⟩
    · rw [if_pos hm]
      by_cases hneg : e < 0
      · rw [if_pos hneg]
        have h2 : -(c.ed : ℤ) < e.tmod c.ed := by
          have := Int.lt_tmod_of_pos e hE
          omega
        rw [Int.toNat_of_nonneg (by omega)]
        exact ⟨e.tdiv c.ed - 1, by rw [mul_sub, mul_one]; linarith⟩
      · rw [if_neg hneg]
        have h2 := Int.tmod_nonneg (c.ed : ℤ) (a := e) (by omega)
        rw [Int.toNat_of_nonneg h2]
        exact ⟨e.tdiv c.ed, by linarith⟩
  have key : ∃ b1 k, b1 = b ++ List.replicate k '0' ∧ n ≤ b1.length ∧
      (if s.length - (a.length + 1) < n then s ++ List.replicate (n - (s.length - (a.length + 1))) '0' else s) =
        a ++ '.' :: b1 := by
    have hl : s.length - (a.length + 1) = b.length := by rw [h.eq]; simp; omega
    rw [hl]
    split
    · refine ⟨_, n - b.length, rfl, by simp; omega, by rw [h.eq]; simp⟩
    · exact ⟨b, 0, by simp, by omega, h.eq⟩
  obtain ⟨b1, k, hb1, hnb, hs1⟩ := key
  have db1 : Dig b1 := by rw [hb1]; exact h.db.append (Dig.zeros k)
  have hv1 : nfVal a b1 e = nfVal a b e := by
    unfold nfVal
    rw [hb1, ← List.append_assoc, digitsVal_append_zeros, zpow_shift k (e - b.length)]
    push_cast
    rw [List.length_append, List.length_replicate]; push_cast
    rw [show e - (b.length + k : ℤ) = e - b.length - k by ring]; ring
  unfold shiftPoint
  dsimp only
  rw [show s.idxOf '.' = a.length by rw [h.eq]; exact idxOf_point h.da, hn, hs1]
  by_cases h0 : n = 0
  · rw [if_neg (by simpa using h0)]
    refine ⟨a, b1, ⟨rfl, h.da, db1, h.ne, h.hd⟩, ?_, hv1⟩
    rw [h0] at hdv; simpa using hdv
  · rw [if_pos h0]
    refine ⟨a ++ b1.take n, b1.drop n, ⟨insert_erase_right hnb, h.da.append (db1.take n), db1.drop n, by simp [h.ne], ?_⟩,
      hdv, ?_⟩
    · rw [head?_append_ne h.ne]; exact h.hd
    · rw [← hv1]; unfold nfVal
      rw [List.append_assoc, List.take_append_drop]
      congr 2
      rw [List.length_drop, Nat.cast_sub hnb]; ring

/-- The part before the point is reduced to one limb. -/
theorem reduceMant_spec (c : Cfg) {s a b : List Char} (e : ℤ) (h : NF s a b) (hed : 0 < c.ed) (hd : (c.ed : ℤ) ∣ e) :
    ∃ a' b', NF (reduceMant c s e).1 a' b' ∧ (c.ed : ℤ) ∣ (reduceMant c s e).2 ∧ a'.length ≤ c.ed ∧
      nfVal a' b' (reduceMant c s e).2 = nfVal a b e := by
  unfold reduceMant
  dsimp only
  rw [show s.idxOf '.' = a.length by rw [h.eq]; exact idxOf_point h.da]
  by_cases hp : a.length > c.ed
  · rw [if_pos hp]
    obtain ⟨n, hn⟩ : ∃ n, a.length / c.ed - (if a.length % c.ed = 0 then 1 else 0) = n := ⟨_, rfl⟩
    rw [hn]
    have hdm := Nat.div_add_mod a.length c.ed
    have hml := Nat.mod_lt a.length hed
    have hdp : 1 ≤ a.length / c.ed := Nat.div_pos (by omega) hed
    have hb : 0 < a.length - n * c.ed ∧ a.length - n * c.ed ≤ c.ed ∧ n * c.ed ≤ a.length := by
      by_cases hz : a.length % c.ed = 0
      · rw [if_pos hz] at hn
        have : n * c.ed + c.ed = a.length := by
          rw [← hdm, hz, ← hn, Nat.sub_mul]
          have : 1 * c.ed ≤ a.length / c.ed * c.ed := Nat.mul_le_mul_right _ hdp
          rw [Nat.mul_comm c.ed]; omega
        omega
      · rw [if_neg hz] at hn
        have : n * c.ed + a.length % c.ed = a.length := by
          rw [← hn, Nat.sub_zero, Nat.mul_comm]; exact hdm
        omega
    obtain ⟨hb1, hb2, hb3⟩ := hb
    refine ⟨a.take (a.length - n * c.ed), a.drop (a.length - n * c.ed) ++ b,
      ⟨by rw [h.eq]; exact insert_erase_left (by omega), h.da.take _, (h.da.drop _).append h.db, ?_, ?_⟩, ?_, ?_, ?_⟩
    · intro hh; have := congrArg List.length hh
      rw [List.length_take] at this; simp at this; omega
    · rcases ha : a with - | ⟨x, xs⟩
      · exact absurd ha h.ne
      · rw [ha] at hb1
        obtain ⟨j, hj⟩ : ∃ j, (x :: xs).length - n * c.ed = j + 1 := ⟨_, (Nat.succ_pred_eq_of_pos hb1).symm⟩
        rw [hj, List.take_succ_cons]
        have := h.hd; rw [ha] at this; simpa using this
    · exact dvd_add hd (Dvd.intro_left _ rfl)
    · rw [List.length_take]; omega
    · unfold nfVal
      rw [← List.append_assoc, List.take_append_drop]
      congr 2
      rw [List.length_append, List.length_drop, show a.length - (a.length - n * c.ed) = n * c.ed by omega]
      push_cast; ring
  · rw [if_neg hp]
    exact ⟨a, b, h, hd, by omega, rfl⟩

/-- Padding or truncation: the part behind the point becomes its first `min` digits, filled with zeros. -/
theorem padTrunc_spec (c : Cfg) {s a b : List Char} (h : NF s a b) (hed : 0 < c.ed) :
    ∃ b' j, padTrunc c s = a ++ '.' :: b' ∧ Dig b' ∧ b'.length = j * c.ed ∧ j ≤ c.N - 1 ∧
      b' ++ List.replicate ((c.N - 1) * c.ed - b'.length) '0' =
        (b ++ List.replicate ((c.N - 1) * c.ed) '0').take ((c.N - 1) * c.ed) := by
  unfold padTrunc
  dsimp only
  rw [show s.idxOf '.' = a.length by rw [h.eq]; exact idxOf_point h.da]
  have hl : s.length - 1 - a.length = b.length := by rw [h.eq]; simp
  rw [hl]
  obtain ⟨k, hk⟩ : ∃ k, (if b.length % c.ed ≠ 0 then c.ed - b.length % c.ed else 0) = k := ⟨_, rfl⟩
  rw [hk]
  have hml := Nat.mod_lt b.length hed
  have hdm := Nat.div_add_mod b.length c.ed
  obtain ⟨j, hj⟩ : ∃ j, b.length + k = j * c.ed := by
    by_cases hz : b.length % c.ed = 0
    · rw [if_neg (by simpa using hz)] at hk
      exact ⟨b.length / c.ed, by rw [← hk, Nat.mul_comm]; omega⟩
    · rw [if_pos hz] at hk
      exact ⟨b.length / c.ed + 1, by rw [← hk, Nat.add_mul, Nat.mul_comm]; omega⟩
  have hs : s ++ List.replicate k '0' = a ++ '.' :: (b ++ List.replicate k '0') := by rw [h.eq]; simp
  rw [hs]
  have hlen : (a ++ '.' :: (b ++ List.replicate k '0')).length - a.length = b.length + k + 1 := by simp
  rw [hlen]
  set M := (c.N - 1) * c.ed with hM
  have db1 : Dig (b ++ List.replicate k '0') := h.db.append (Dig.zeros k)
  by_cases hbig : b.length + k + 1 > M
  · rw [if_pos hbig]
    have hge : M ≤ b.length + k := by omega
    refine ⟨(b ++ List.replicate k '0').take M, c.N - 1, ?_, db1.take M, ?_, le_refl _, ?_⟩
    · rw [List.take_append, List.take_of_length_le (by omega),
        show a.length + 1 + M - a.length = M + 1 by omega, List.take_succ_cons]
    · rw [List.length_take, List.length_append, List.length_replicate]; omega
    · have hll : ((b ++ List.replicate k '0').take M).length = M := by
        rw [List.length_take, List.length_append, List.length_replicate]; omega
      rw [hll, Nat.sub_self, List.replicate_zero, List.append_nil, List.take_append, List.take_append,
        List.take_replicate, List.take_replicate]
      congr 2; omega
  · rw [if_neg hbig]
    have hle : j * c.ed ≤ (c.N - 1) * c.ed := by omega
    refine ⟨b ++ List.replicate k '0', j, rfl, db1, by simp [hj], Nat.le_of_mul_le_mul_right hle hed, ?_⟩
    rw [List.take_append, List.take_of_length_le (by omega), List.take_replicate, List.append_assoc,
      ← List.replicate_add]
    congr 2
    rw [List.length_append, List.length_replicate]; omega

theorem limbLoop_spec (ed : ℕ) : ∀ (k : ℕ) (l : List Char), Dig l → l.length = k * ed →
    limbsVal (10 ^ ed) (limbLoop ed k l) = digitsVal l ∧ (limbLoop ed k l).length = k ∧
    ValidLimbs (10 ^ ed) (limbLoop ed k l) := by
  intro k
  induction k with
  | zero =>
    intro l _ hl
    have : l = [] := List.length_eq_zero_iff.mp (by simpa using hl)
    subst this
    exact ⟨rfl, rfl, by intro x hx; simp [limbLoop] at hx⟩
  | succ k ih =>
    intro l hd hl
    have hlt : ed ≤ l.length := by rw [hl, Nat.add_mul]; omega
    have hdl : (l.drop ed).length = k * ed := by rw [List.length_drop, hl, Nat.add_mul]; omega
    obtain ⟨i1, i2, i3⟩ := ih (l.drop ed) (hd.drop ed) hdl
    refine ⟨?_, by simp [limbLoop, i2], ?_⟩
    · unfold limbLoop
      rw [limbsVal, i1, i2, strtoul_dig (hd.take ed), ← pow_mul]
      conv_rhs => rw [← List.take_append_drop ed l, digitsVal_append, hdl, Nat.mul_comm k ed]
    · intro x hx
      unfold limbLoop at hx
      rcases List.mem_cons.mp hx with hx | hx
      · rw [hx, strtoul_dig (hd.take ed)]
        have := digitsVal_lt (hd.take ed)
        rwa [List.length_take_of_le hlt] at this
      · exact i3 x hx

end WD
