import Verif.Proofs.Closure
import Verif.Proofs.Inv
/-
  Closure of the representation invariant under division: every intermediate number of the Newton iteration is well formed,
  whatever well-formed start value the floating-point estimate produces.
-/
namespace WD
open DW

theorem headD_ne_of_ge {B : Nat} {D : List Nat} (hv : ValidLimbs B D) {p : Nat} (hp : 1 ≤ p) (hl : D.length = p)
    (hge : B ^ (p - 1) ≤ limbsVal B D) : D.headD 0 ≠ 0 := by
  intro h0
  cases D with
  | nil => simp at hl; omega
  | cons z zs =>
    simp at h0; subst h0
    rw [limbsVal_cons, zero_mul, zero_add] at hge
    rw [validLimbs_cons] at hv
    have := limbsVal_lt hv.2
    simp at hl
    rw [show zs.length = p - 1 by omega] at this
    omega

/-- The result of a same-sign addition at precision `p`, from the limb sum. -/
theorem addSame_result {c : Cfg} {u : DW} {s : List Nat × Nat} {p M : Nat} {e : ℤ} (hu : WF c u) (hp1 : 1 ≤ p) (hp : p ≤ c.N)
    (he : (c.ed : ℤ) ∣ e) (s1 : s.1.length = p) (s2 : ValidLimbs c.B s.1) (s3 : s.2 ≤ 1)
    (s4 : limbsVal c.B s.1 + s.2 * c.B ^ p = M) (hM : c.B ^ (p - 1) ≤ M) :
    WF c (if s.2 ≠ 0 then { u with data := carryIn c.N p (s.1 ++ u.data.drop p) s.2, exp := e + c.ed }
      else { u with data := s.1 ++ u.data.drop p, exp := e }) := by
  have h3 := c.three_le_N
  have hl : (s.1 ++ u.data.drop p).length = c.N := by simp [s1, hu.len]; omega
  have hv : ValidLimbs c.B (s.1 ++ u.data.drop p) := validLimbs_append.mpr ⟨s2, hu.valid.drop p⟩
  split
  · next h =>
    have hne : (s.1 ++ u.data.drop p).take (c.N - (p - 1)) ≠ [] := by
      intro h0
      have := congrArg List.length h0
      rw [List.length_take, hl] at this
      simp at this
      omega
    have hd : carryIn c.N p (s.1 ++ u.data.drop p) s.2 =
        s.2 :: (((s.1 ++ u.data.drop p).take (c.N - (p - 1))).tail ++ (s.1 ++ u.data.drop p).take (p - 1)) := by
      unfold carryIn
      rw [set_zero_append hne]
    refine ⟨?_, ?_, dvd_add he (dvd_refl _), hu.prec2, hu.precN, ?_⟩
    · show (carryIn _ _ _ _).length = _
      unfold carryIn
      rw [List.length_set, List.length_append, List.length_take, List.length_take, hl]; omega
    · show ValidLimbs _ (carryIn _ _ _ _)
      rw [hd, validLimbs_cons, validLimbs_append]
      refine ⟨lt_of_le_of_lt s3 c.one_lt_B, fun d hd => ?_, hv.take _⟩
      exact (hv.take _) d (List.mem_of_mem_tail hd)
    · intro h0
      exfalso
      apply h
      have : (carryIn c.N p (s.1 ++ u.data.drop p) s.2).headD 0 = 0 := h0
      rw [hd] at this
      simpa using this
  · next h =>
    have h : s.2 = 0 := by simpa using h
    rw [h, zero_mul, add_zero] at s4
    have hh := headD_ne_of_ge s2 hp1 s1 (s4 ▸ hM)
    refine ⟨hl, hv, he, hu.prec2, hu.precN, fun h0 => ?_⟩
    exfalso
    apply hh
    have h0 : (s.1 ++ u.data.drop p).headD 0 = 0 := h0
    cases hs : s.1 with
    | nil => rfl
    | cons y ys => rw [hs] at h0; simpa using h0

/-- Same-sign addition at any precision yields a well-formed number (although the carry branch displaces limbs). -/
theorem addSame_WF {c : Cfg} {u v : DW} (hu : WF c u) (hv : WF c v) (huz : u.isZero = false) (hvz : v.isZero = false)
    {p : Nat} (hp1 : 1 ≤ p) (hp : p ≤ c.N) {ofs : ℤ} (hlt : ofs.natAbs < p) :
    WF c (addSame c p ofs u v) := by
  by_cases h0 : 0 ≤ ofs
  · obtain ⟨k, rfl⟩ := Int.eq_ofNat_of_zero_le h0
    obtain ⟨s1, s2, s3, s4⟩ := addN_aligned hu.pre hv.pre hp (k := k) (by omega)
    have := addSame_result hu hp1 hp hu.dvd s1 s2 s3 s4 (le_trans (hu.mantp_ge huz hp1 hp) (Nat.le_add_right _ _))
    unfold addSame
    simpa only [h0, if_true, Int.toNat_natCast] using this
  · obtain ⟨k, hk⟩ := Int.eq_ofNat_of_zero_le (show 0 ≤ -ofs by omega)
    obtain ⟨s1, s2, s3, s4⟩ := addN_aligned hv.pre hu.pre hp (k := k) (by omega)
    have := addSame_result hu hp1 hp hv.dvd s1 s2 s3 s4 (le_trans (hv.mantp_ge hvz hp1 hp) (Nat.le_add_right _ _))
    unfold addSame
    simp only [h0, if_false, hk, Int.toNat_natCast]
    rw [addN, addN_comm_len, ← addN]
    exact this

/-- Opposite-sign addition at any precision to a number whose limbs behind the first vanish. -/
theorem addOpp_WF {c : Cfg} {u v : DW} (hu : WF c u) (hv : WF c v) (huz : u.isZero = false) (hvz : v.isZero = false)
    {p : Nat} (hp1 : 1 ≤ p) (hp : p ≤ c.N) {ofs : ℤ} (ho : u.exp - v.exp = ofs * c.ed) (hlt : ofs.natAbs < p)
    (ht : ∀ d ∈ u.data.drop 1, d = 0) : WF c (addOpp c p ofs u v) := by
  rcases addOpp_cases hu hv huz hvz hp1 hp ho hlt with
    ⟨w, k, e, hw, ek, -, -, -, -, hltm, hm, hd⟩ | ⟨w, k, e, hw, ek, -, -, -, -, hle, hm, hd⟩
  · rw [e]; exact (justify_spec hw hp (by omega)).1
  · rw [e]
    by_cases h0 : w.mantp c p = 0
    · have hk : k = 0 := by
        by_contra hk
        have := lt_of_shift hv hu hvz hp (by omega) (Nat.pos_of_ne_zero hk)
        omega
      subst hk
      rw [shr_zero hu.len] at hd
      have : ∀ d ∈ w.data, d = 0 := by
        intro d hdm
        rw [← List.take_append_drop p w.data] at hdm
        rcases List.mem_append.mp hdm with h | h
        · exact (limbsVal_zero_iff c.B_pos).mp h0 d h
        · rw [hd] at h
          obtain ⟨q, rfl⟩ : ∃ q, p = q + 1 := ⟨p - 1, by omega⟩
          rw [Nat.add_comm q 1, ← List.drop_drop] at h
          exact ht d (List.mem_of_mem_drop h)
      rw [justify_zero this]; exact (zero_WF c).toWF
    · exact (justify_spec hw hp h0).1

/-- Adding any well-formed number, at any precision, to a number with a single non-zero limb. -/
theorem addAssign_single_WF {c : Cfg} {u v : DW} (hu : WF c u) (hv : WF c v) (ht : ∀ d ∈ u.data.drop 1, d = 0) :
    WF c (addAssign c u v) := by
  rcases Bool.dichotomy u.isZero with huz | huz
  swap
  · rw [addAssign_zero_left huz]; exact hv
  rcases Bool.dichotomy v.isZero with hvz | hvz
  swap
  · rw [addAssign_zero_right huz hvz]; exact hu
  obtain ⟨k, hk⟩ := exp_sub_dvd hu hv
  have hed : (0 : ℤ) < c.ed := by exact_mod_cast c.ed_pos
  have hp1 : 1 ≤ min u.prec v.prec := by have := hu.prec2; have := hv.prec2; omega
  have hpN : min u.prec v.prec ≤ c.N := by have := hu.precN; omega
  unfold addAssign
  simp only [huz, hvz, Bool.false_eq_true, if_false, false_or]
  generalize min u.prec v.prec = p at *
  split
  · exact hu
  · next h1 =>
    split
    · exact hv
    · next h2 =>
      rw [ofs_eq hk]
      have hlt : k.natAbs < p := by
        by_contra hge
        have hge' : (p : ℤ) ≤ k.natAbs := by exact_mod_cast (by omega : p ≤ k.natAbs)
        rcases le_or_gt 0 k with h | h
        · have h3 : (p : ℤ) * c.ed ≤ k * c.ed := mul_le_mul_of_nonneg_right (by omega) hed.le
          exact h1 ⟨by rw [hk]; exact mul_nonneg h hed.le, by rw [hk]; exact h3⟩
        · have h3 : (p : ℤ) * c.ed ≤ (-k) * c.ed := mul_le_mul_of_nonneg_right (by omega) hed.le
          exact h2 ⟨by rw [hk]; exact mul_neg_of_neg_of_pos h hed, by rw [hk, ← neg_mul]; exact h3⟩
      split
      · exact addSame_WF hu hv huz hvz hp1 hpN hlt
      · exact addOpp_WF hu hv huz hvz hp1 hpN hk hlt ht

/-- Multiplication at any precision. -/
theorem mulAssign_WF {c : Cfg} {x y : DW} (hx : WF c x) (hy : WF c y) (hok : MulOkAll c)
    (hE : (c.ed : ℤ) ∣ c.maxExp) : WF c (mulAssign c x y) := by
  have hmx := (maxVal_full c hE).toWF
  have hmn := (minVal_full c hE).toWF
  have h3 := c.three_le_N
  by_cases hz : x.isZero = true ∨ y.isZero = true
  · have hz0 : (zero c).isZero = true := zero_isZero c
    have h1 : isOneSN c { zero c with neg := false } = false := isOneSN_zero c _ hz0
    have he : (zero c).exp = 0 := rfl
    unfold mulAssign
    simp only [hz, if_true, h1, Bool.false_eq_true, if_false]
    split
    · exact setNeg_wf (zero_WF c).toWF _
    · split
      · exact setNeg_wf hmx _
      · split
        · exact setNeg_wf hmn _
        · have hu : WF c { zero c with neg := false, exp := (zero c).exp + y.exp } :=
            ⟨(zero_WF c).len, (zero_WF c).valid, by rw [he, zero_add]; exact hy.dvd, (zero_WF c).prec2, (zero_WF c).precN, (zero_WF c).lead⟩
          have hp1 : 1 ≤ min (zero c).prec y.prec := by have := (zero_WF c).prec2; have := hy.prec2; omega
          have hpN : min (zero c).prec y.prec ≤ c.N := by have := hy.precN; omega
          exact setNeg_wf (mulDispatch_zero hu hy.len hy.valid ((zero_WF c).lead (by simpa [isZero] using hz0)) hpN (hok.ok hp1 hpN)).2.1 _
  · rw [not_or] at hz
    have hxz : x.isZero = false := by simpa using hz.1
    have hyz : y.isZero = false := by simpa using hz.2
    rcases mulAssign_cases (c := c) hxz hyz with ⟨h1, e⟩ | ⟨h1, h2, e⟩ | ⟨h1, h2, h3, e⟩ | ⟨h1, h2, h0, h3, e⟩ | ⟨h1, h2, h3, h4, e⟩
    · rw [e]; exact setNeg_wf hy _
    · rw [e]; exact setNeg_wf hx _
    · rw [e]; exact setNeg_wf hmx _
    · rw [e]; exact setNeg_wf hmn _
    · rw [e]
      have hp1 : 1 ≤ min x.prec y.prec := by have := hx.prec2; have := hy.prec2; omega
      have hpN : min x.prec y.prec ≤ c.N := by have := hy.precN; omega
      exact setNeg_wf (mulDispatch_val (setNeg_wf hx false) hy hxz hyz hpN (hok.ok hp1 hpN) (dvd_add hx.dvd hy.dvd) rfl).1 _

theorem precision_WF {c : Cfg} {x : DW} (hx : WF c x) (d : ℤ) : WF c (precision c x d) := by
  have h3 := c.three_le_N
  refine ⟨hx.len, hx.valid, hx.dvd, ?_, ?_, hx.lead⟩
  · show 2 ≤ (min (c.N : ℤ) (max _ 2)).toNat; omega
  · show (min (c.N : ℤ) (max _ 2)).toNat ≤ c.N; omega

theorem two_tail (c : Cfg) : ∀ d ∈ ((two c).negate).data.drop 1, d = 0 := by
  have h3 := c.three_le_N
  have e : ((two c).negate).data = (two c).data := by unfold negate; split <;> rfl
  intro d hd
  rw [e] at hd
  obtain ⟨n, hn⟩ : ∃ n, c.N = n + 1 := ⟨c.N - 1, by omega⟩
  have : (two c).data.drop 1 = List.replicate n 0 := by
    unfold two fromLst; rw [hn]; simp
  rw [this] at hd
  exact List.eq_of_mem_replicate hd

theorem two_sub_WF {c : Cfg} {t : DW} (ht : WF c t) : WF c (subAssign c (two c) t) :=
  negate_WF (addAssign_single_WF (negate_WF (two_full c).toWF) ht (two_tail c))

theorem invStep_WF {c : Cfg} (hok : MulOkAll c) (hE : (c.ed : ℤ) ∣ c.maxExp) {x y : DW} (hx : WF c x) (hy : WF c y) (D : ℕ) :
    WF c (invStep c D y x).1 ∧ WF c (invStep c D y x).2 := by
  have hy' := precision_WF hy ((D : ℤ) * 2 + ((min (c.ed + 1) 9 : ℕ) : ℤ))
  have hx' := precision_WF hx ((D : ℤ) * 2 + ((min (c.ed + 1) 9 : ℕ) : ℤ))
  exact ⟨mulAssign_WF hy' (two_sub_WF (mulAssign_WF hy' hx' hok hE)) hok hE, hx'⟩

theorem invLoop_WF {c : Cfg} (hok : MulOkAll c) (hE : (c.ed : ℤ) ∣ c.maxExp) (limit : ℕ) :
    ∀ (n D : ℕ) (y x : DW), limit - D ≤ n → WF c x → WF c y → WF c (invLoop c limit D y x) := by
  intro n
  induction n with
  | zero =>
    intro D y x hn hx hy
    rw [invLoop, dif_neg (by omega)]
    exact hy
  | succ n ih =>
    intro D y x hn hx hy
    rw [invLoop]
    split
    · next h =>
      have := invStep_WF hok hE hx hy D
      exact ih _ _ _ (by omega) this.2 this.1
    · exact hy

/-- The floating-point estimate always produces a well-formed object. -/
def EstWF (c : Cfg) (est : DW → DW) : Prop := ∀ x, Full c x → x.isZero = false → WF c (est x)

theorem calcInv_closed {c : Cfg} {est : DW → DW} {fdig : ℕ} (hok : MulOkAll c) (hE : (c.ed : ℤ) ∣ c.maxExp) (he : EstWF c est)
    {x : DW} (hx : Full c x) : Full c (calcInv c est fdig x) := by
  unfold calcInv
  split
  · exact zero_WF c
  · next hz =>
    split
    · exact hx
    · have h1 := invLoop_WF hok hE (x.prec * c.ed) _ (fdig - 1) (est { x with neg := false }) { x with neg := false } (le_refl _)
        (setNeg_wf hx.toWF false) (he _ (setNeg_full hx false) (show x.isZero = false by simpa using hz))
      exact ⟨⟨h1.len, h1.valid, h1.dvd, hx.prec2, hx.precN, h1.lead⟩, hx.full⟩

theorem divAssign_closed {c : Cfg} {est : DW → DW} {fdig : ℕ} (hok : MulOkAll c) (hE : (c.ed : ℤ) ∣ c.maxExp) (he : EstWF c est)
    {x y : DW} (hx : Full c x) (hy : Full c y) : Full c (divAssign c est fdig x y) := by
  have h3 := c.three_le_N
  unfold divAssign
  split
  · split
    · exact negate_full (one_full c)
    · exact one_full c
  · exact mulAssign_closed hx (calcInv_closed hok hE he hy) (hok.ok (by omega) (le_refl _)) hE

theorem divULL_closed_all {c : Cfg} {est : DW → DW} {fdig : ℕ} (hok : MulOkAll c) (hE : (c.ed : ℤ) ∣ c.maxExp) (he : EstWF c est)
    {x : DW} (hx : Full c x) {n : ℕ} (hn : n < 2 ^ 64) : Full c (divULL c est fdig x n) := by
  by_cases hB : n < c.B
  · exact divULL_closed hx hB
  · have := c.B_pos
    unfold divULL
    rw [if_neg (by omega)]
    split
    · exact setNeg_full hx _
    · rw [if_pos (by omega)]
      exact divAssign_closed hok hE he hx (by rw [ofUnsigned64]; exact (fromULL_spec c n hn false).1)

end WD
