import Verif.Proofs.Add5
import Verif.Proofs.Kara
import Verif.Props.Tables

namespace WD
open DW

/-- Limb counts for which the modelled multiplication is the schoolbook routine without accumulator overflow, or
    Karatsuba. -/
def MulOk (c : Cfg) (p : Nat) : Prop := 1 ≤ p ∧ p < 1793 ∧ (c.L = .u16 → p ≤ 42 ∨ 113 ≤ p)

instance (c : Cfg) (p : Nat) : Decidable (MulOk c p) := by unfold MulOk; infer_instance

theorem rd_store_pad (m : Mem) (p n : Nat) (l : List Nat) (hl : l.length ≤ n) (hm : ∀ q, p + l.length ≤ q → q < p + n → m q = 0) :
    rd (m.store p l) p n = l ++ List.replicate (n - l.length) 0 := by
  obtain ⟨k, rfl⟩ : ∃ k, n = l.length + k := ⟨n - l.length, by omega⟩
  rw [rd_append, rd_store]
  congr 1
  have : ∀ (j q : Nat) (m' : Mem), (∀ i, q ≤ i → i < q + j → m' i = 0) → rd m' q j = List.replicate j 0 := by
    intro j
    induction j with
    | zero => intros; rfl
    | succ j ih =>
      intro q m' h
      simp only [rd, List.replicate_succ]
      rw [h q (by omega) (by omega), ih (q + 1) m' (fun i h1 h2 => h i (by omega) (by omega))]
  have h2 := this k (p + l.length) (m.store p l) (fun i h1 h2 => by
    rw [store_frame _ _ _ _ (by omega)]; exact hm i h1 (by omega))
  rw [h2]; congr 1; omega

theorem karaProduct_spec {c : Cfg} {p : Nat} {a b : List Nat} (hp : p < 1793) (ha : a.length = p) (hb : b.length = p)
    (va : ValidLimbs c.B a) (vb : ValidLimbs c.B b) :
    (karaProduct c p a b).length = 2 * karaLen p ∧ p ≤ karaLen p ∧ ValidLimbs c.B (karaProduct c p a b) ∧
    limbsVal c.B (karaProduct c p a b) = limbsVal c.B a * limbsVal c.B b * c.B ^ (2 * karaLen p - 2 * p) := by
  obtain ⟨h1, -, -, h4, h5⟩ := karaLen_least p (by omega)
  unfold karaProduct
  generalize karaLen p = n at *
  simp only
  set m : Mem := Mem.store (Mem.store (fun _ => 0) 0 a) n b with hm
  have ra : rd m 0 n = a ++ List.replicate (n - p) 0 := by
    have e1 : rd m 0 n = rd (Mem.store (fun _ => 0) 0 a) 0 n := rd_congr fun q _ h => by
      rw [hm, store_frame _ _ _ _ (by omega)]
    rw [e1, rd_store_pad _ _ _ _ (by omega) (fun _ _ _ => rfl), ha]
  have rb : rd m n n = b ++ List.replicate (n - p) 0 := by
    rw [hm, rd_store_pad _ _ _ _ (by omega) (fun q h1 h2 => by rw [store_frame _ _ _ _ (by omega)]), hb]
  obtain ⟨k1, k2, -⟩ := kara_ok c.L h4 h5 m (2 * n) 0 n (4 * n) (by unfold Disjoint2; omega) (by unfold Disjoint2; omega)
    (by unfold Disjoint2; omega) (by unfold Disjoint2; omega) (by unfold Disjoint2; omega)
    (by rw [ra, validLimbs_append]; exact ⟨va, validLimbs_replicate c.L.mask_pos⟩)
    (by rw [rb, validLimbs_append]; exact ⟨vb, validLimbs_replicate c.L.mask_pos⟩)
  refine ⟨by simp, h1, k2, ?_⟩
  change limbsVal c.B _ = _ at k1
  rw [k1, ra, rb]
  change limbsVal c.B _ * limbsVal c.B _ = _
  rw [limbsVal_append, limbsVal_append, limbsVal_replicate_zero, List.length_replicate]
  have : 2 * n - 2 * p = (n - p) + (n - p) := by omega
  rw [this, pow_add]; ring

/-- The 2p (or more) limbs the multiplication routines produce. -/
def prodLimbs (c : Cfg) (p : Nat) (a b : List Nat) : List Nat :=
  if p < elemsForKara then schoolMul c.L a b else karaProduct c p a b

theorem prodLimbs_spec {c : Cfg} {p : Nat} {a b : List Nat} (hp : MulOk c p) (ha : a.length = p) (hb : b.length = p)
    (va : ValidLimbs c.B a) (vb : ValidLimbs c.B b) :
    2 * p ≤ (prodLimbs c p a b).length ∧ ValidLimbs c.B (prodLimbs c p a b) ∧
    limbsVal c.B (prodLimbs c p a b) = limbsVal c.B a * limbsVal c.B b * c.B ^ ((prodLimbs c p a b).length - 2 * p) := by
  unfold prodLimbs
  obtain ⟨h1, h2, h3⟩ := hp
  split
  · next h =>
    have hs : schoolSafe c.L a.length := by
      rw [ha]; unfold elemsForKara at h
      cases hL : c.L <;> simp only [schoolSafe]
      · have := h3 hL; omega
      · omega
    obtain ⟨s1, s2, s3⟩ := schoolMul_spec c.L (by rw [ha, hb]) (by omega) va vb hs
    refine ⟨by rw [s1, ha], s2, ?_⟩
    have : (schoolMul c.L a b).length - 2 * p = 0 := by rw [s1, ha]; omega
    rw [this, pow_zero, Nat.mul_one]; exact s3
  · obtain ⟨s1, s2, s3, s4⟩ := karaProduct_spec h2 ha hb va vb
    rw [s1]; exact ⟨by omega, s3, s4⟩

/-- The dispatcher: result limbs, exponent and value. -/
theorem mulDispatch_spec {c : Cfg} {u v : DW} {p : Nat} (hu : WF c u) (hv : WF c v) (huz : u.isZero = false)
    (hvz : v.isZero = false) (hp : p ≤ c.N) (hok : MulOk c p) :
    ∃ k, (k = p ∧ (mulDispatch c p u v).exp = u.exp + c.ed ∨ k = p - 1 ∧ (mulDispatch c p u v).exp = u.exp) ∧
    WF c (mulDispatch c p u v) ∧ (mulDispatch c p u v).isZero = false ∧ (mulDispatch c p u v).neg = u.neg ∧
    (mulDispatch c p u v).prec = u.prec ∧
    (mulDispatch c p u v).mantp c p = u.mantp c p * v.mantp c p / c.B ^ k := by
  have hl1 := take_length' hu.len hp
  have hl2 := take_length' hv.len hp
  obtain ⟨s1, s2, s3⟩ := prodLimbs_spec hok hl1 hl2 (hu.valid.take p) (hv.valid.take p)
  have hU := hu.mantp_ge huz hok.1 hp
  have hV := hv.mantp_ge hvz hok.1 hp
  have hB := c.B_pos
  have hp1 := hok.1
  generalize hR : prodLimbs c p (u.data.take p) (v.data.take p) = R at *
  change limbsVal c.B R = u.mantp c p * v.mantp c p * c.B ^ (R.length - 2 * p) at s3
  have hlow : c.B ^ (p - 1) * c.B ^ (p - 1) ≤ u.mantp c p * v.mantp c p := Nat.mul_le_mul hU hV
  -- the prefix of i limbs of R
  have hpre : ∀ i, i ≤ 2 * p → limbsVal c.B (R.take i) = u.mantp c p * v.mantp c p / c.B ^ (2 * p - i) := by
    intro i hi
    rw [limbsVal_take hB s2, s3]
    have : R.length - i = (R.length - 2 * p) + (2 * p - i) := by omega
    rw [this, pow_add, ← Nat.div_div_eq_div_mul, Nat.mul_div_cancel _ (Nat.pow_pos hB)]
  have hdisp : mulDispatch c p u v = if R.headD 0 ≠ 0 then { u with data := R.take p ++ u.data.drop p, exp := u.exp + c.ed }
      else { u with data := (R.drop 1).take p ++ u.data.drop p } := by
    unfold mulDispatch
    simp only [elemsForFft, hok.2.1, if_true]
    rw [← hR]; rfl
  have fin : ∀ (D : List Nat) (r : DW), r.data = D ++ u.data.drop p → D.length = p → ValidLimbs c.B D → D.headD 0 ≠ 0 →
      (c.ed : ℤ) ∣ r.exp → r.prec = u.prec → WF c r ∧ r.isZero = false ∧ r.mantp c p = limbsVal c.B D := by
    intro D r hr hD hv hh he hpr
    have hd0 : r.d0 ≠ 0 := by
      unfold d0; rw [hr]
      cases D with
      | nil => simp at hh
      | cons y ys => simpa using hh
    refine ⟨⟨?_, ?_, he, hpr ▸ hu.prec2, hpr ▸ hu.precN, fun h => absurd h hd0⟩, by simpa [isZero] using hd0, ?_⟩
    · rw [hr, List.length_append, hD, List.length_drop, hu.len]; omega
    · rw [hr, validLimbs_append]; exact ⟨hv, hu.valid.drop p⟩
    · unfold mantp; rw [hr, List.take_append, ← hD, List.take_length]; simp
  rw [hdisp]
  by_cases hh : R.headD 0 = 0
  · rw [if_neg (by simpa using hh)]
    -- first limb vanishes
    obtain ⟨y, ys, hRc⟩ : ∃ y ys, R = y :: ys := by
      cases R with
      | nil => simp at s1; omega
      | cons y ys => exact ⟨y, ys, rfl⟩
    rw [hRc] at hh; simp at hh; subst hh
    have hD : (ys.take p).length = p := by rw [hRc] at s1; simp at s1 ⊢; omega
    have hval : limbsVal c.B (ys.take p) = u.mantp c p * v.mantp c p / c.B ^ (p - 1) := by
      have h := hpre (p + 1) (by omega)
      rw [hRc, List.take_succ_cons, limbsVal_cons, zero_mul, zero_add] at h
      rw [h]; congr 2; omega
    have hge : c.B ^ (p - 1) ≤ limbsVal c.B (ys.take p) := by
      rw [hval, Nat.le_div_iff_mul_le (Nat.pow_pos hB)]; exact hlow
    have hvys : ValidLimbs c.B (ys.take p) := by
      rw [hRc, validLimbs_cons] at s2; exact s2.2.take p
    have hhead : (ys.take p).headD 0 ≠ 0 := by
      intro h0
      cases hy : ys.take p with
      | nil => rw [hy] at hD; simp at hD; omega
      | cons z zs =>
        rw [hy] at h0 hge hvys hD; simp at h0; subst h0
        rw [limbsVal_cons, zero_mul, zero_add] at hge
        rw [validLimbs_cons] at hvys
        have := limbsVal_lt hvys.2
        simp at hD
        rw [show zs.length = p - 1 by omega] at this
        omega
    obtain ⟨f1, f2, f3⟩ := fin (ys.take p) { u with data := (R.drop 1).take p ++ u.data.drop p }
      (by rw [hRc]; simp) hD hvys hhead hu.dvd rfl
    exact ⟨p - 1, Or.inr ⟨rfl, rfl⟩, f1, f2, rfl, rfl, by rw [f3, hval]⟩
  · rw [if_pos hh]
    have hD : (R.take p).length = p := by simp; omega
    have hhead : (R.take p).headD 0 ≠ 0 := by
      obtain ⟨q, rfl⟩ : ∃ q, p = q + 1 := ⟨p - 1, by omega⟩
      cases R with
      | nil => simp at hh
      | cons y ys => simpa using hh
    obtain ⟨f1, f2, f3⟩ := fin (R.take p) { u with data := R.take p ++ u.data.drop p, exp := u.exp + c.ed }
      rfl hD (s2.take p) hhead (dvd_add hu.dvd (dvd_refl _)) rfl
    refine ⟨p, Or.inl ⟨rfl, rfl⟩, f1, f2, rfl, rfl, ?_⟩
    rw [f3, hpre p (by omega)]; congr 2; omega

/-- Value form: the first `p` limbs are the truncated product of the first `p` limbs. -/
theorem mulDispatch_val {c : Cfg} {u v : DW} {p : Nat} (hu : WF c u) (hv : WF c v) (huz : u.isZero = false)
    (hvz : v.isZero = false) (hp : p ≤ c.N) (hok : MulOk c p) {e : ℤ} (hude : (c.ed : ℤ) ∣ e) (he : e = u.exp + v.exp) :
    let r := mulDispatch c p { u with exp := e } v
    WF c r ∧ r.isZero = false ∧ r.neg = u.neg ∧ r.prec = u.prec ∧ (r.exp = e ∨ r.exp = e + c.ed) ∧
    r.absp c p ≤ u.absp c p * v.absp c p ∧ u.absp c p * v.absp c p < r.absp c p + 10 ^ r.lexpp c p := by
  intro r
  have hu' : WF c { u with exp := e } := ⟨hu.len, hu.valid, hude, hu.prec2, hu.precN, hu.lead⟩
  obtain ⟨k, hk, h1, h2, h3, h4, h5⟩ := mulDispatch_spec hu' hv (show ({ u with exp := e } : DW).isZero = false from huz)
    hvz hp hok
  change (k = p ∧ r.exp = e + c.ed ∨ k = p - 1 ∧ r.exp = e) at hk
  change r.mantp c p = u.mantp c p * v.mantp c p / c.B ^ k at h5
  refine ⟨h1, h2, h3, h4, hk.elim (fun h => Or.inr h.2) (fun h => Or.inl h.2), ?_⟩
  have hp1 := hok.1
  have hl : r.lexpp c p = (u.lexpp c p + v.lexpp c p) + (c.ed : ℤ) * k := by
    unfold lexpp
    rcases hk with ⟨a, b⟩ | ⟨a, b⟩ <;> rw [a, b, he]
    · push_cast; ring
    · have : ((p - 1 : Nat) : ℤ) = (p : ℤ) - 1 := by omega
      rw [this]; ring
  obtain ⟨q1, q2⟩ := shift_frac c (u.mantp c p * v.mantp c p) k _ _ hl
  have hprod : u.absp c p * v.absp c p = ((u.mantp c p * v.mantp c p : Nat) : ℚ) * 10 ^ (u.lexpp c p + v.lexpp c p) := by
    unfold absp
    rw [zpow_add₀ (by norm_num)]; push_cast; ring
  rw [hprod]
  have hr : r.absp c p = ((u.mantp c p * v.mantp c p / c.B ^ k : Nat) : ℚ) * 10 ^ r.lexpp c p := by
    unfold absp; rw [h5]
  rw [hr]
  exact ⟨q1, q2⟩

end WD
