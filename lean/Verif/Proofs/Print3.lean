import Verif.Proofs.Print2
import Verif.Proofs.Floor
import Verif.Props.Misc
/-
  `wr_string` as a whole, and uniqueness of the representation of a non-zero number.
-/
namespace WD
open DW Util

theorem osPrec_pos (f : Fmt) (h : f.scientific = false) : 1 ≤ f.osPrec := by
  unfold Fmt.osPrec
  rw [h]; split
  · simp
  · omega

theorem numDigits_pos (c : Cfg) (f : Fmt) (e : ℤ) : 1 ≤ f.numDigits c e := by
  unfold Fmt.numDigits
  dsimp only
  have hm : 1 ≤ c.maxDigits10 := by unfold Cfg.maxDigits10; omega
  rcases Bool.dichotomy f.scientific with hs | hs
  · have hp := osPrec_pos f hs
    have key : 1 ≤ (if f.useScientific c e = true then min (c.maxDigits10 + 1) (1 + f.osPrec)
        else if 0 ≤ e then (min (e + 1 + (f.osPrec : ℤ)) ((c.maxDigits10 + 1 : ℕ) : ℤ)).toNat else min f.osPrec (c.maxDigits10 + 1)) := by
      split
      · omega
      · split <;> omega
    split
    · exact key
    · exact le_min key (le_min hp hm)
  · have hu : f.useScientific c e = true := by unfold Fmt.useScientific; rw [hs]; rfl
    rw [hu, hs]; simp

theorem osPrec_eq (f : Fmt) : f.osPrec = if f.precision ≤ 0 then (if f.scientific = true then 0 else 6) else f.precision.toNat := rfl

theorem signed_value (t : DecText) (hs : t.sign = none) (ht : t.Valid) (sg : Option Bool) :
    ({ t with sign := sg } : DecText).Valid ∧
    ({ t with sign := sg } : DecText).chars = DecText.signChars sg ++ t.chars ∧
    ({ t with sign := sg } : DecText).value = (if sg = some true then -1 else 1) * t.value := by
  refine ⟨⟨ht.ip, ht.fp, ht.some, ht.ex⟩, ?_, ?_⟩
  · unfold DecText.chars; rw [hs]; simp [DecText.signChars]
  · unfold DecText.value; rw [hs]; simp [DecText.frac, DecText.exponent]

/-- Everything `wr_string` writes is a decimal text (possibly filled) denoting the rounded number. -/
theorem wrString_spec {c : Cfg} {x : DW} {f : Fmt} (hx : WF c x) (hexp : x.exp.natAbs < 2 ^ 63) :
    (∀ out, wrString c x f = some out →
      ∃ (t : DecText) (e' : ℤ) (len : ℕ), t.Valid ∧ out = padTo f.width f.fill f.left t.chars ∧
        t.sign = (if x.neg then some true else if f.showpos then some false else none) ∧
        t.value = (if x.neg then -1 else 1) * roundHalfUp (ilogb x - f.numDigits c (ilogb x) + 1) |x.val c| ∧
        (e' = ilogb x ∨ e' = ilogb x + 1) ∧ len ≤ f.numDigits c (ilogb x) ∧
        (f.useScientific c (ilogb x) = true → t.ip.length = 1 ∧ (x.isZero = false → t.ip ≠ ['0']) ∧ t.exponent = e' ∧
          (f.scientific = true → t.frac.length = f.osPrec)) ∧
        (f.useScientific c (ilogb x) = false → t.ex = none ∧
          (f.fixed = true → (0 ≤ e' → (len : ℤ) ≤ e' + 1 + f.osPrec → t.frac.length = f.osPrec) ∧
            (e' < 0 → (t.frac.length : ℤ) = max (f.osPrec : ℤ) (len - (e' + 1)))))) ∧
    ((f.showpoint = false ∨ f.scientific = true ∨ f.fixed = true) → (wrString c x f).isSome) := by
  obtain ⟨s, e', o1, o2, o3, o4, o5, o6, o7, o8⟩ := outputString_spec hx (numDigits_pos c f (ilogb x))
  have he' : e'.natAbs < 10 ^ 20 := by
    have hE : ilogb x = x.exp + ((orderOf x.d0 : ℤ) - 1) := rfl
    have ho : 1 ≤ orderOf x.d0 := (orderOf_digits x.d0).2.2
    have ho2 : orderOf x.d0 ≤ 9 := by
      have hlt : x.d0 < 10 ^ 8 := by
        have h1 : x.d0 < c.B := by
          unfold d0
          rcases hdd : x.data with - | ⟨y, ys⟩
          · show 0 < c.B
            exact c.B_pos
          · exact hx.valid y (by rw [hdd]; exact List.mem_cons_self)
        have h2 : c.B ≤ 10 ^ 8 := by
          show 10 ^ c.L.ed ≤ _
          cases c.L <;> decide
        omega
      by_contra hc
      by_cases h0 : 0 < x.d0
      · have := (orderOf_digits x.d0).2.1 h0
        have : 10 ^ 9 ≤ 10 ^ (orderOf x.d0 - 1) := Nat.pow_le_pow_right (by norm_num) (by omega)
        omega
      · have : x.d0 = 0 := by omega
        rw [this, orderOf] at hc; simp at hc
    omega
  unfold wrString
  dsimp only
  rw [o1]
  simp only [Option.bind_eq_bind, Option.bind_some]
  constructor
  · intro out hout
    rw [Option.bind_eq_some_iff] at hout
    obtain ⟨body, hb, hout⟩ := hout
    unfold wrBody at hb
    dsimp only at hb
    obtain ⟨t, t1, t2, t3, t4, t5, t6⟩ : ∃ t : DecText, t.sign = none ∧ t.Valid ∧ body = t.chars ∧
        t.value = (digitsVal s : ℚ) * (10 : ℚ) ^ (e' - (s.length - 1)) ∧
        (f.useScientific c (ilogb x) = true → t.ip.length = 1 ∧ (x.isZero = false → t.ip ≠ ['0']) ∧ t.exponent = e' ∧
          (f.scientific = true → t.frac.length = f.osPrec)) ∧
        (f.useScientific c (ilogb x) = false → t.ex = none ∧
          (f.fixed = true → (0 ≤ e' → (s.length : ℤ) ≤ e' + 1 + f.osPrec → t.frac.length = f.osPrec) ∧
            (e' < 0 → (t.frac.length : ℤ) = max (f.osPrec : ℤ) (s.length - (e' + 1))))) := by
      rcases Bool.dichotomy (f.useScientific c (ilogb x)) with hu | hu
      · rw [hu] at hb
        simp only [Bool.false_eq_true, if_false] at hb
        obtain ⟨t, a1, a2, a3, a4, a5, a6, a7⟩ := wrFixed_spec o2 o3 hb
        refine ⟨t, a1, a3, a4, a5, fun h => absurd (hu.symm.trans h) (by decide), fun _ => ⟨a2, fun hf => ?_⟩⟩
        have : (!(f.scientific || f.fixed)) = false := by rw [hf]; simp
        exact ⟨a6 this, a7 this⟩
      · rw [hu] at hb
        simp only [if_true] at hb
        obtain ⟨t, a1, a2, a3, a4, a5, a6, a7⟩ := wrScientific_spec o2 o3 he' hb
        have hip : t.ip.length = 1 ∧ (x.isZero = false → t.ip ≠ ['0']) := by
          obtain ⟨y, ys, rfl⟩ := List.exists_cons_of_ne_nil o3
          rw [a5]
          refine ⟨rfl, fun hz h => o6 hz ?_⟩
          have := List.cons.inj h
          rw [this.1]; rfl
        refine ⟨t, a1, a2, a3, a6, fun _ => ⟨hip.1, hip.2, a4, fun hs => ?_⟩, fun h => absurd (hu.symm.trans h) (by decide)⟩
        apply a7
        · rw [hs]; simp
        · have : f.numDigits c (ilogb x) ≤ 1 + f.osPrec := by
            unfold Fmt.numDigits; dsimp only
            rw [hu, hs]; simp
          omega
    obtain ⟨v1, v2, v3⟩ := signed_value t t1 t2 (if x.neg then some true else if f.showpos then some false else none)
    refine ⟨{ t with sign := (if x.neg then some true else if f.showpos then some false else none) }, e', s.length,
      v1, ?_, rfl, ?_, o5, o4, t5, t6⟩
    · have hsc : (if x.neg = true then '-' :: body else if f.showpos = true then '+' :: body else body) =
        DecText.chars { t with sign := (if x.neg then some true else if f.showpos then some false else none) } := by
        rw [v2, t3]
        cases x.neg
        · cases f.showpos <;> simp [DecText.signChars]
        · simp [DecText.signChars]
      rw [hsc] at hout
      show out = padTo f.width f.fill f.left
        (DecText.chars { t with sign := (if x.neg then some true else if f.showpos then some false else none) })
      generalize DecText.chars { t with sign := (if x.neg then some true else if f.showpos then some false else none) } = L
        at hout ⊢
      unfold padTo
      split at hout
      · have := Option.some.inj hout
        rw [← this]
      · have := Option.some.inj hout
        rename_i hw
        rw [← this, show f.width.toNat - L.length = 0 by omega]
        simp
    · rw [v3, t4, o8]
      congr 1
      cases x.neg
      · cases f.showpos <;> simp
      · simp
  · intro hcond
    have hcond' : f.showpoint = false ∨ (!(f.scientific || f.fixed)) = false := by
      rcases hcond with h | h | h
      · exact Or.inl h
      · right; rw [h]; simp
      · right; rw [h]; simp
    obtain ⟨body, hb⟩ : ∃ body, wrBody f (f.useScientific c (ilogb x)) s e' = some body := by
      apply Option.isSome_iff_exists.mp
      unfold wrBody
      dsimp only
      split
      · exact wrScientific_isSome he' hcond'
      · unfold wrFixed
        exact finish_isSome _ _ _ _ hcond'
    rw [hb, Option.bind_some]
    generalize (if x.neg = true then '-' :: body else if f.showpos = true then '+' :: body else body) = L
    split <;> rfl

/-- Two full-precision numbers with the same non-zero value are the same object. -/
theorem repr_unique {c : Cfg} {x y : DW} (hx : Full c x) (hy : Full c y) (hx0 : x.val c ≠ 0) (h : x.val c = y.val c) :
    x = y := by
  have hxz := isZero_false_of_val hx.toWF hx0
  have hab : |x.val c| = |y.val c| := by rw [h]
  have he := exp_eq_of_bracket hx.toWF hy.toWF hxz (by rw [h]) (by rw [h]; linarith [x.ulp_pos c])
  have hd : x.data = y.data := by
    rw [abs_val, abs_val] at hab
    have hl : x.lexp c = y.lexp c := by unfold lexp; rw [he]
    rw [hl] at hab
    have hm : x.mant c = y.mant c := by
      have := mul_right_cancel₀ (p10_pos (y.lexp c)).ne' hab
      exact_mod_cast this
    exact limbsVal_inj hx.valid hy.valid (hx.len.trans hy.len.symm) hm
  have hn : x.neg = y.neg := by
    have a := val_sgn c x; have b := val_sgn c y
    have hp := hx.toWF.abs_pos hxz
    rw [← h] at b
    rcases Bool.dichotomy x.neg with h1 | h1 <;> rcases Bool.dichotomy y.neg with h2 | h2 <;> rw [h1, h2]
    · rw [h1] at a; rw [h2] at b; simp at a b; linarith
    · rw [h1] at a; rw [h2] at b; simp at a b; linarith
  have hp : x.prec = y.prec := by rw [hx.full, hy.full]
  obtain ⟨xd, xe, xn, xp⟩ := x
  obtain ⟨yd, ye, yn, yp⟩ := y
  simp only at *
  subst hd; subst he; subst hn; subst hp
  rfl

end WD
