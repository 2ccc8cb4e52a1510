import Verif.Proofs.IntPart
import Verif.Props.Tables

namespace WD
open DW

theorem limbDigits_eq (t : Nat) (h : 0 < t) : limbDigits t = orderOf t := by
  induction t using Nat.strong_induction_on with
  | _ t ih =>
    rw [limbDigits, orderOf]
    simp only [show ¬ t = 0 by omega, dite_false]
    by_cases h10 : t / 10 = 0
    · simp only [h10, dite_true]; rw [limbDigits]; simp
    · simp only [h10, dite_false]; rw [ih _ (by omega) (by omega)]

theorem roundCarry_spec {B W : Nat} (hB : 0 < B) (hW : B < W) : ∀ r : List Nat, ValidLimbs B r →
    (roundCarry B W r).1.length = r.length ∧ ValidLimbs B (roundCarry B W r).1 ∧ (roundCarry B W r).2 ≤ 1 ∧
    limbsVal B (roundCarry B W r).1.reverse + (roundCarry B W r).2 * B ^ r.length = limbsVal B r.reverse + 1 := by
  intro r
  induction r with
  | nil => intro _; simp [roundCarry, validLimbs_nil]
  | cons x xs ih =>
    intro hv
    obtain ⟨hx, hxs⟩ := validLimbs_cons.mp hv
    obtain ⟨i1, i2, i3, i4⟩ := ih hxs
    have ht : (x + 1) % W = x + 1 := Nat.mod_eq_of_lt (by omega)
    simp only [roundCarry, ht]
    split
    · next h =>
      have hxe : x + 1 = B := by omega
      refine ⟨by simp [i1], validLimbs_cons.mpr ⟨by omega, i2⟩, i3, ?_⟩
      simp only [List.reverse_cons, limbsVal_snoc, List.length_cons, pow_succ]
      have : x + 1 - B = 0 := by omega
      rw [this]
      have e : limbsVal B (roundCarry B W xs).1.reverse * B + (roundCarry B W xs).2 * (B ^ xs.length * B)
        = (limbsVal B (roundCarry B W xs).1.reverse + (roundCarry B W xs).2 * B ^ xs.length) * B := by ring
      rw [Nat.add_zero, e, i4]
      rw [Nat.add_mul]; omega
    · next h =>
      refine ⟨by simp, validLimbs_cons.mpr ⟨by omega, hxs⟩, by omega, ?_⟩
      simp only [List.reverse_cons, limbsVal_snoc]
      omega

theorem list_split (l : List Nat) (i : Nat) (h : i < l.length) :
    l = l.take i ++ [l.getD i 0] ++ l.drop (i + 1) := by
  have e : l.getD i 0 = l[i] := by simp [List.getD, h]
  rw [e, List.append_assoc, List.singleton_append, ← List.drop_eq_getElem_cons h, List.take_append_drop]

/-- A number around limb `i`: prefix, limb and tail. -/
theorem limbsVal_at {B : Nat} (l : List Nat) (i : Nat) (h : i < l.length) :
    limbsVal B l = (limbsVal B (l.take i) * B + l.getD i 0) * B ^ (l.length - 1 - i) + limbsVal B (l.drop (i + 1)) := by
  conv_lhs => rw [list_split l i h]
  rw [limbsVal_append, limbsVal_snoc, List.length_drop]
  congr 3
  omega

theorem tail_lt {B : Nat} {l : List Nat} (hv : ValidLimbs B l) (i : Nat) (h : i < l.length) :
    limbsVal B (l.drop (i + 1)) < B ^ (l.length - 1 - i) := by
  have := limbsVal_lt (hv.drop (i + 1))
  rw [List.length_drop] at this
  rwa [show l.length - 1 - i = l.length - (i + 1) by omega]

/-- A decimal digit of a limb is a decimal digit of the whole number. -/
theorem digit_at {e : Nat} (l : List Nat) (hv : ValidLimbs (10 ^ e) l) (i p : Nat) (hi : i < l.length) (hp : p < e) :
    l.getD i 0 / 10 ^ p % 10 = limbsVal (10 ^ e) l / 10 ^ (e * (l.length - 1 - i) + p) % 10 := by
  rw [limbsVal_at l i hi, Nat.pow_add, ← Nat.div_div_eq_div_mul, Nat.pow_mul]
  have ht := tail_lt hv i hi
  rw [Nat.add_comm, Nat.add_mul_div_right _ _ (by positivity), Nat.div_eq_of_lt ht, Nat.zero_add]
  have : (10 : Nat) ^ e = 10 ^ p * (10 * 10 ^ (e - p - 1)) := by
    rw [← pow_succ', ← pow_add]; congr 1; omega
  rw [this, show limbsVal (10 ^ p * (10 * 10 ^ (e - p - 1))) (l.take i) * (10 ^ p * (10 * 10 ^ (e - p - 1))) + l.getD i 0
    = l.getD i 0 + 10 ^ p * (limbsVal (10 ^ p * (10 * 10 ^ (e - p - 1))) (l.take i) * 10 ^ (e - p - 1) * 10) by ring]
  rw [Nat.add_mul_div_left _ _ (by positivity), Nat.add_mul_mod_self_right]

/-- Number of decimal digits of the first limb. -/
def DW.nd (x : DW) : Nat := orderOf x.d0

/-- Index of the limb that holds the last retained digit. -/
def leastIdx (c : Cfg) (x : DW) : Nat :=
  (c.maxDigits10 - x.nd) / c.ed + (if (c.maxDigits10 - x.nd) % c.ed ≠ 0 then 1 else 0)

/-- Number of trailing decimal digits of the mantissa that rounding discards. -/
def cutDigits (c : Cfg) (x : DW) : Nat := c.ed * (c.N - 1) - (c.maxDigits10 - x.nd)

theorem nd_bounds {c : Cfg} {x : DW} (hx : WF c x) (hz : x.isZero = false) :
    1 ≤ x.nd ∧ x.nd ≤ c.ed ∧ 10 ^ (x.nd - 1) ≤ x.d0 ∧ x.d0 < 10 ^ x.nd := by
  obtain ⟨h1, h2, h3⟩ := orderOf_digits x.d0
  have hd : 0 < x.d0 := by have : x.d0 ≠ 0 := by simpa [isZero] using hz
                           omega
  have hlt : x.d0 < c.B := by
    have h3 := c.three_le_N
    unfold d0
    cases hdd : x.data with
    | nil => have := hx.len; rw [hdd] at this; simp at this; omega
    | cons y ys => simp; exact hx.valid y (by rw [hdd]; simp)
  refine ⟨h3, ?_, h2 hd, h1⟩
  by_contra h
  have : 10 ^ c.ed ≤ 10 ^ (x.nd - 1) := Nat.pow_le_pow_right (by norm_num) (by omega)
  have := h2 hd
  rw [Cfg.B_eq] at hlt
  unfold nd at *
  omega

/-- Position arithmetic of `eval_round_self`. -/
theorem round_positions {c : Cfg} {x : DW} (hx : WF c x) (hz : x.isZero = false) (hg : c.ed ≤ c.digits10 + 4) :
    let dig := c.maxDigits10 - x.nd
    let lpos := if dig % c.ed ≠ 0 then c.ed - dig % c.ed else 0
    let ridx := if dig % c.ed ≠ 0 then leastIdx c x else leastIdx c x + 1
    let rpos := if lpos ≠ 0 then lpos - 1 else c.ed - 1
    leastIdx c x < c.N ∧ ridx < c.N ∧ lpos < c.ed ∧ rpos < c.ed ∧ 1 ≤ cutDigits c x ∧
    cutDigits c x = c.ed * (c.N - 1 - leastIdx c x) + lpos ∧
    cutDigits c x - 1 = c.ed * (c.N - 1 - ridx) + rpos ∧ dig + cutDigits c x = c.ed * (c.N - 1) ∧
    c.ed * leastIdx c x = dig + lpos := by
  obtain ⟨n1, n2, -, -⟩ := nd_bounds hx hz
  have hN := c.digits_le
  have hp := c.ed_pos
  have h3 := c.three_le_N
  have hed : c.ed = 2 ∨ c.ed = 4 ∨ c.ed = 8 := by unfold Cfg.ed; cases c.L <;> simp [Limb.ed]
  have hmd : c.maxDigits10 = c.digits10 + 4 := rfl
  obtain ⟨m, hm⟩ : ∃ m, c.N = m + 1 := ⟨c.N - 1, by omega⟩
  rw [hm, Nat.add_sub_cancel] at hN
  simp only [cutDigits, leastIdx, hmd, hm, Nat.add_sub_cancel]
  generalize c.ed = e at *
  rcases hed with rfl | rfl | rfl <;> split_ifs <;> omega

set_option maxHeartbeats 1000000 in
theorem roundSelf_mant {c : Cfg} {x : DW} (hx : WF c x) (hz : x.isZero = false) (hg : c.ed ≤ c.digits10 + 4) :
    let K := cutDigits c x
    let M := x.mant c
    let R := (if 5 ≤ M / 10 ^ (K - 1) % 10 then M / 10 ^ K + 1 else M / 10 ^ K) * 10 ^ K
    let res := if leastIdx c x + 1 < c.N - 1 then 0 else limbsVal c.B (x.data.drop (leastIdx c x + 1))
    let r := roundSelf c x
    WF c r ∧ r.isZero = false ∧ r.neg = x.neg ∧ r.prec = x.prec ∧ res < 10 ^ K ∧
    ((r.exp = x.exp ∧ r.mant c = R + res) ∨ (r.exp = x.exp + c.ed ∧ r.mant c = c.B ^ (c.N - 1) ∧ R = c.B ^ c.N)) := by
  intro K M R res r
  obtain ⟨hl, hr, hlp, hrp, hK, eK, eK1, -, -⟩ := round_positions hx hz hg
  have hB := c.B_pos
  have hlen := hx.len
  have hdpos : 0 < x.d0 := by have : x.d0 ≠ 0 := by simpa [isZero] using hz
                              omega
  have h3 := c.three_le_N
  have hned : c.ed ≤ 8 := by unfold Cfg.ed; cases c.L <;> simp [Limb.ed]
  have hW : c.B + c.B < c.L.W := by have := c.L.two_mask_lt; unfold Cfg.B; omega
  set dig := c.maxDigits10 - x.nd with hdig
  set lpos := (if dig % c.ed ≠ 0 then c.ed - dig % c.ed else 0) with hlpos
  set ridx := (if dig % c.ed ≠ 0 then leastIdx c x else leastIdx c x + 1) with hridx
  set rpos := (if lpos ≠ 0 then lpos - 1 else c.ed - 1) with hrpos
  set l := leastIdx c x with hl_def
  set m := c.N - 1 - l with hm
  -- the retained part
  have hMat : M = (limbsVal c.B (x.data.take l) * c.B + x.data.getD l 0) * c.B ^ m + limbsVal c.B (x.data.drop (l + 1)) := by
    have := limbsVal_at (B := c.B) x.data l (by rw [hlen]; exact hl)
    rw [hlen] at this; exact this
  have hT : limbsVal c.B (x.data.drop (l + 1)) < c.B ^ m := by
    have := tail_lt hx.valid l (by rw [hlen]; exact hl)
    rwa [hlen] at this
  have h10K : 10 ^ K = 10 ^ lpos * c.B ^ m := by
    show 10 ^ cutDigits c x = _
    rw [eK, Cfg.B_eq, ← pow_mul, ← pow_add, Nat.add_comm]
  set d := x.data.getD l 0 with hd
  set P := limbsVal c.B (x.data.take l) with hP
  have hdB : d < c.B := by
    have hll : l < x.data.length := by rw [hlen]; exact hl
    have e : d = x.data[l] := by rw [hd]; simp [List.getD, hll]
    rw [e]
    exact hx.valid _ (List.getElem_mem _)
  have h10l : 10 ^ lpos ∣ c.B := by rw [Cfg.B_eq]; exact pow_dvd_pow _ hlp.le
  have h10pos : 0 < 10 ^ lpos := by positivity
  obtain ⟨bq, hbq⟩ := h10l
  have hMK : M / 10 ^ K = P * bq + d / 10 ^ lpos := by
    rw [h10K, Nat.mul_comm, ← Nat.div_div_eq_div_mul, hMat, Nat.add_comm,
      Nat.add_mul_div_right _ _ (Nat.pow_pos hB), Nat.div_eq_of_lt hT, Nat.zero_add, hbq,
      show P * (10 ^ lpos * bq) + d = d + 10 ^ lpos * (P * bq) by ring, Nat.add_mul_div_left _ _ h10pos, Nat.add_comm]
  set cl := d - d % 10 ^ lpos with hcl
  have hcl' : cl = 10 ^ lpos * (d / 10 ^ lpos) := by
    have := Nat.div_add_mod d (10 ^ lpos); omega
  have hMKm : M / 10 ^ K * 10 ^ K = (P * c.B + cl) * c.B ^ m := by
    rw [hMK, h10K, hcl']
    conv_rhs => rw [show P * c.B = P * (10 ^ lpos * bq) by rw [← hbq]]
    ring
  have hrv : x.data.getD ridx 0 / pow10Runtime rpos % 10 = M / 10 ^ (K - 1) % 10 := by
    rw [(pow10_tables_exact rpos (by omega)).2]
    have := digit_at (e := c.ed) x.data hx.valid ridx rpos (by rw [hlen]; exact hr) hrp
    rw [this, hlen, ← eK1]; rfl
  have hp10 : pow10Runtime lpos = 10 ^ lpos := (pow10_tables_exact lpos (by omega)).2
  set behind := (if l + 1 < c.N - 1 then List.replicate (c.N - (l + 1)) 0 else x.data.drop (l + 1)) with hbeh
  have hbl : behind.length = c.N - (l + 1) := by
    rw [hbeh]; split <;> simp [hlen]
  have hbv : ValidLimbs c.B behind := by
    rw [hbeh]; split
    · exact validLimbs_replicate hB
    · exact hx.valid.drop _
  have hbval : limbsVal c.B behind = res := by
    show _ = (if l + 1 < c.N - 1 then 0 else limbsVal c.B (x.data.drop (l + 1)))
    rw [hbeh]; split
    · exact limbsVal_eq_zero (fun d h => (List.mem_replicate.mp h).2)
    · rfl
  have hres : res < c.B ^ m := by
    rw [← hbval]
    have := limbsVal_lt hbv
    rwa [hbl, show c.N - (l + 1) = m by omega] at this
  have hresK : res < 10 ^ K := by
    rw [h10K]
    exact lt_of_lt_of_le hres (Nat.le_mul_of_pos_left _ h10pos)
  have hrdef : r = roundSelf c x := rfl
  unfold roundSelf at hrdef
  simp only [hz, Bool.false_eq_true, if_false] at hrdef
  rw [limbDigits_eq _ hdpos] at hrdef
  have hdig' : c.maxDigits10 - orderOf x.d0 = dig := rfl
  simp only [hdig'] at hrdef
  have hl' : dig / c.ed + (if dig % c.ed ≠ 0 then 1 else 0) = l := rfl
  simp only [hl'] at hrdef
  simp only [← hridx, ← hlpos] at hrdef
  simp only [← hrpos] at hrdef
  rw [hrv, hp10] at hrdef
  simp only [← hd, ← hcl, ← hbeh] at hrdef
  have hPlen : (x.data.take l).length = l := by simp [hlen]; omega
  have hPv := hx.valid.take l
  -- a list prefix ++ [z] ++ behind
  have hgen : ∀ (pre : List Nat) (z : Nat), pre.length = l → limbsVal c.B (pre ++ [z] ++ behind) =
      (limbsVal c.B pre * c.B + z) * c.B ^ m + res ∧ (pre ++ [z] ++ behind).length = c.N := by
    intro pre z hpl
    refine ⟨?_, by simp [hbl, hpl]; omega⟩
    rw [limbsVal_append, limbsVal_snoc, hbval, hbl, show c.N - (l + 1) = m by omega]
  -- finishing: same exponent
  have fin : ∀ (pre : List Nat) (z : Nat), pre.length = l → ValidLimbs c.B pre → z < c.B →
      x.mant c - x.mant c % c.B ^ (c.N - 1) ≤ (limbsVal c.B pre * c.B + z) * c.B ^ m →
      r = { x with data := pre ++ [z] ++ behind } → R = (limbsVal c.B pre * c.B + z) * c.B ^ m →
      WF c r ∧ r.isZero = false ∧ r.neg = x.neg ∧ r.prec = x.prec ∧ res < 10 ^ K ∧
      ((r.exp = x.exp ∧ r.mant c = R + res) ∨ (r.exp = x.exp + c.ed ∧ r.mant c = c.B ^ (c.N - 1) ∧ R = c.B ^ c.N)) := by
    intro pre z hpl hpv hzB hge hrr hRR
    obtain ⟨g1, g2⟩ := hgen pre z hpl
    have hmr : limbsVal c.B (pre ++ [z] ++ behind) ≥ c.B ^ (c.N - 1) := by
      rw [g1]
      have h1 := hx.mant_ge hz
      have h2 : c.B ^ (c.N - 1) ≤ x.mant c - x.mant c % c.B ^ (c.N - 1) := by
        have hq := Nat.div_add_mod (x.mant c) (c.B ^ (c.N - 1))
        have hq1 : 1 ≤ x.mant c / c.B ^ (c.N - 1) := (Nat.one_le_div_iff (Nat.pow_pos hB)).mpr h1
        have : c.B ^ (c.N - 1) * 1 ≤ c.B ^ (c.N - 1) * (x.mant c / c.B ^ (c.N - 1)) := Nat.mul_le_mul_left _ hq1
        omega
      omega
    have hv : ValidLimbs c.B (pre ++ [z] ++ behind) :=
      validLimbs_append.mpr ⟨validLimbs_append.mpr ⟨hpv, validLimbs_cons.mpr ⟨hzB, validLimbs_nil _⟩⟩, hbv⟩
    have hhead : (pre ++ [z] ++ behind).headD 0 ≠ 0 := by
      intro h0
      have hne : (pre ++ [z] ++ behind) ≠ [] := by simp
      obtain ⟨w, ws, hw⟩ := List.exists_cons_of_ne_nil hne
      rw [hw] at h0 g2 hmr hv
      simp only [List.headD_cons] at h0
      rw [limbsVal_cons, h0, Nat.zero_mul, Nat.zero_add] at hmr
      have := limbsVal_lt (validLimbs_cons.mp hv).2
      simp only [List.length_cons] at g2
      rw [show ws.length = c.N - 1 by omega] at this
      omega
    rw [hrr]
    refine ⟨⟨g2, hv, hx.dvd, hx.prec2, hx.precN, fun h => absurd h hhead⟩, ?_, rfl, rfl, hresK, Or.inl ⟨rfl, ?_⟩⟩
    · simpa [isZero, d0] using hhead
    · show limbsVal c.B (pre ++ [z] ++ behind) = _
      rw [g1, hRR]
  -- lower bound for the truncated part
  have hlow : x.mant c - x.mant c % c.B ^ (c.N - 1) ≤ (P * c.B + cl) * c.B ^ m := by
    rw [← hMKm]
    have hdvd : 10 ^ K ∣ c.B ^ (c.N - 1) := by
      rw [Cfg.B_eq, ← pow_mul]
      apply pow_dvd_pow
      show c.ed * (c.N - 1) - _ ≤ _
      omega
    obtain ⟨t, ht⟩ := hdvd
    have hq := Nat.div_add_mod (x.mant c) (c.B ^ (c.N - 1))
    have e1 : x.mant c - x.mant c % c.B ^ (c.N - 1) = c.B ^ (c.N - 1) * (x.mant c / c.B ^ (c.N - 1)) := by omega
    rw [e1]
    have e2 : c.B ^ (c.N - 1) * (x.mant c / c.B ^ (c.N - 1)) = 10 ^ K * (t * (x.mant c / c.B ^ (c.N - 1))) := by
      conv_lhs => rw [show c.B ^ (c.N - 1) * (x.mant c / c.B ^ (c.N - 1)) = (10 ^ K * t) * (x.mant c / c.B ^ (c.N - 1)) by rw [← ht]]
      ring
    rw [e2, Nat.mul_comm]
    apply Nat.mul_le_mul_right
    rw [Nat.le_div_iff_mul_le (by positivity), Nat.mul_comm, ← e2]
    exact Nat.mul_div_le _ _
  by_cases h5 : 5 ≤ M / 10 ^ (K - 1) % 10
  · have hRd : R = (P * c.B + (cl + 10 ^ lpos)) * c.B ^ m := by
      show (if 5 ≤ M / 10 ^ (K - 1) % 10 then M / 10 ^ K + 1 else M / 10 ^ K) * 10 ^ K = _
      rw [if_pos h5, Nat.add_mul, hMKm, h10K]; ring
    simp only [ge_iff_le, h5, if_true] at hrdef
    have hup : (cl + 10 ^ lpos) % c.L.W = cl + 10 ^ lpos := by
      apply Nat.mod_eq_of_lt
      have : 10 ^ lpos ≤ c.B := by rw [Cfg.B_eq]; exact Nat.pow_le_pow_right (by norm_num) hlp.le
      omega
    rw [hup] at hrdef
    by_cases hc : c.B ≤ cl + 10 ^ lpos
    · simp only [hc, if_true] at hrdef
      have hceq : cl + 10 ^ lpos = c.B := by
        have h1 : d / 10 ^ lpos < bq := by
          rw [Nat.div_lt_iff_lt_mul h10pos, Nat.mul_comm, ← hbq]; exact hdB
        have h2 : cl + 10 ^ lpos = 10 ^ lpos * (d / 10 ^ lpos + 1) := by rw [hcl']; ring
        have h3 : 10 ^ lpos * (d / 10 ^ lpos + 1) ≤ 10 ^ lpos * bq := Nat.mul_le_mul_left _ h1
        rw [← hbq] at h3
        omega
      rw [hceq, Nat.sub_self] at hrdef
      have hvr : ValidLimbs c.B (x.data.take l).reverse := fun y hy => hPv y (List.mem_reverse.mp hy)
      obtain ⟨c1, c2, c3, c4⟩ := roundCarry_spec hB (show c.B < c.L.W by omega) (x.data.take l).reverse hvr
      rw [List.reverse_reverse, List.length_reverse, hPlen] at c4
      rw [List.length_reverse, hPlen] at c1
      set rc := roundCarry c.B c.L.W (x.data.take l).reverse with hrc
      have hrl : rc.1.reverse.length = l := by simp [c1]
      have hrv' : ValidLimbs c.B rc.1.reverse := fun y hy => c2 y (List.mem_reverse.mp hy)
      by_cases hc2 : rc.2 = 0
      · rw [hc2] at hrdef c4
        simp only [ne_eq, not_true_eq_false, if_false] at hrdef
        rw [Nat.zero_mul, Nat.add_zero] at c4
        have e : (limbsVal c.B rc.1.reverse * c.B + 0) = P * c.B + c.B := by rw [c4, ← hP]; ring
        refine fin rc.1.reverse 0 hrl hrv' hB ?_ hrdef (by rw [hRd, hceq, e])
        rw [e]
        refine le_trans hlow (Nat.mul_le_mul_right _ ?_)
        omega
      · have hc1 : rc.2 = 1 := by omega
        rw [hc1] at hrdef c4
        simp only [ne_eq, one_ne_zero, not_false_eq_true, if_true] at hrdef
        have hPlt : P < c.B ^ l := by have := limbsVal_lt hPv; rwa [hPlen] at this
        have hrc0 : limbsVal c.B rc.1.reverse = 0 := by rw [← hP] at c4; omega
        have hPe : P + 1 = c.B ^ l := by rw [← hP] at c4; omega
        have hall : ∀ y ∈ rc.1.reverse, y = 0 := (limbsVal_zero_iff hB).mp hrc0
        obtain ⟨g1, g2⟩ := hgen rc.1.reverse 0 hrl
        -- R = B^N
        have hRN : R = c.B ^ c.N := by
          rw [hRd, hceq, show P * c.B + c.B = (P + 1) * c.B by ring, hPe, ← pow_succ, ← pow_add]
          congr 1; omega
        -- all limbs kept are zero: the residual limb (if any) falls off the end
        have hres0 : limbsVal c.B ((rc.1.reverse ++ [0] ++ behind).take (c.N - 1)) = 0 := by
          rw [limbsVal_zero_iff hB]
          intro y hy
          by_cases hcl2 : l + 1 < c.N - 1
          · have hb0 : behind = List.replicate (c.N - (l + 1)) 0 := by rw [hbeh, if_pos hcl2]
            have hy' := List.mem_of_mem_take hy
            simp only [List.mem_append, List.mem_singleton, hb0, List.mem_replicate] at hy'
            rcases hy' with (h | h) | ⟨-, h⟩
            · exact hall y h
            · exact h
            · exact h
          · have hy' : y ∈ rc.1.reverse ++ [0] := by
              have : (rc.1.reverse ++ [0] ++ behind).take (c.N - 1) = (rc.1.reverse ++ [0]).take (c.N - 1) := by
                rw [List.take_append_of_le_length]
                simp only [List.length_append, hrl, List.length_cons, List.length_nil]; omega
              rw [this] at hy
              exact List.mem_of_mem_take hy
            rcases List.mem_append.mp hy' with h | h
            · exact hall y h
            · simpa using h
        have hlt : ((rc.1.reverse ++ [0] ++ behind).take (c.N - 1)).length = c.N - 1 := by
          rw [List.length_take, g2]; omega
        have hvv : ValidLimbs c.B (rc.1.reverse ++ [0] ++ behind) :=
          validLimbs_append.mpr ⟨validLimbs_append.mpr ⟨hrv', validLimbs_cons.mpr ⟨hB, validLimbs_nil _⟩⟩, hbv⟩
        rw [hrdef]
        refine ⟨⟨?_, ?_, ?_, hx.prec2, hx.precN, ?_⟩, ?_, rfl, rfl, hresK, Or.inr ⟨rfl, ?_, hRN⟩⟩
        · show (1 :: (rc.1.reverse ++ [0] ++ behind).take (c.N - 1)).length = c.N
          rw [List.length_cons, hlt]; omega
        · exact validLimbs_cons.mpr ⟨c.one_lt_B, hvv.take _⟩
        · exact dvd_add hx.dvd (dvd_refl _)
        · intro h; exact absurd h (by simp [d0])
        · simp [isZero, d0]
        · show limbsVal c.B (1 :: (rc.1.reverse ++ [0] ++ behind).take (c.N - 1)) = _
          rw [limbsVal_cons, hlt, hres0]; ring
    · simp only [hc, if_false] at hrdef
      refine fin (x.data.take l) (cl + 10 ^ lpos) hPlen hPv (by omega) ?_ hrdef hRd
      rw [← hP]
      exact le_trans hlow (Nat.mul_le_mul_right _ (by omega))
  · have hRd : R = (P * c.B + cl) * c.B ^ m := by
      show (if 5 ≤ M / 10 ^ (K - 1) % 10 then M / 10 ^ K + 1 else M / 10 ^ K) * 10 ^ K = _
      rw [if_neg h5, hMKm]
    simp only [ge_iff_le, h5, if_false] at hrdef
    exact fin (x.data.take l) cl hPlen hPv (by omega) (by rw [← hP]; exact hlow) hrdef hRd

end WD
