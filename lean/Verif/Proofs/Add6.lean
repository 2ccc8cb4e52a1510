import Verif.Proofs.Add5

namespace WD
open DW

theorem window_unique {S M r1 r2 : ℚ} (hM : 0 < M)
    (a1 : 0 ≤ S → S ≤ r1 ∧ r1 < S + M) (a2 : S ≤ 0 → r1 ≤ S ∧ S - M < r1)
    (b1 : 0 ≤ S → S ≤ r2 ∧ r2 < S + M) (b2 : S ≤ 0 → r2 ≤ S ∧ S - M < r2)
    (hm : ∃ m : ℤ, r1 = m * M) (hn : ∃ m : ℤ, r2 = m * M) : r1 = r2 := by
  obtain ⟨m, hm⟩ := hm
  obtain ⟨n, hn⟩ := hn
  have := multiple_unique hM (m := m) (n := n) (by
    rw [← hm, ← hn, abs_lt]
    rcases le_total 0 S with h | h
    · obtain ⟨x1, x2⟩ := a1 h; obtain ⟨y1, y2⟩ := b1 h; constructor <;> linarith
    · obtain ⟨x1, x2⟩ := a2 h; obtain ⟨y1, y2⟩ := b2 h; constructor <;> linarith)
  rw [hm, hn, this]

theorem same_unique {c : Cfg} {r1 r2 : DW} {S : ℚ} (h1 : WF c r1) (h2 : WF c r2) (z1 : r1.isZero = false)
    (z2 : r2.isZero = false) (a1 : |r1.val c| ≤ S) (a2 : S < |r1.val c| + r1.ulp c)
    (b1 : |r2.val c| ≤ S) (b2 : S < |r2.val c| + r2.ulp c) : |r1.val c| = |r2.val c| := by
  rcases le_total |r1.val c| |r2.val c| with h | h
  · exact trunc_exact h1 h2 z1 h (by linarith)
  · exact (trunc_exact h2 h1 z2 h (by linarith)).symm

/-- Uniqueness of the result of a full-precision addition from the two values. -/
theorem addAssign_congr {c : Cfg} {u v u' v' : DW} (hu : Full c u) (hv : Full c v) (hu' : Full c u') (hv' : Full c v')
    (huz : u.isZero = false) (hvz : v.isZero = false) (huz' : u'.isZero = false) (hvz' : v'.isZero = false)
    (hs : u.neg = v.neg ↔ u'.neg = v'.neg) (hS : u.val c + v.val c = u'.val c + v'.val c)
    (hA : |u.val c| + |v.val c| = |u'.val c| + |v'.val c|)
    (hM : max (u.ulp c) (v.ulp c) = max (u'.ulp c) (v'.ulp c)) :
    (addAssign c u v).val c = (addAssign c u' v').val c := by
  by_cases h : u.neg = v.neg
  · have h' := hs.mp h
    obtain ⟨q1, q2, q3, q4, q5, q6, q7⟩ := addAssign_same hu hv huz hvz h
    obtain ⟨p1, p2, p3, p4, p5, p6, p7⟩ := addAssign_same hu' hv' huz' hvz' h'
    have e := same_unique q1.toWF p1.toWF q3 p3 q6 q7 (by rw [hA]; exact p6) (by rw [hA]; exact p7)
    have : u.neg = u'.neg := by
      rw [same_sign_sum h, same_sign_sum h', hA] at hS
      have pos : 0 < |u'.val c| + |v'.val c| := add_pos_of_pos_of_nonneg (hu'.toWF.abs_pos huz') (abs_nonneg _)
      cases a : u.neg <;> cases b : u'.neg <;> rw [a, b] at hS <;> simp at hS ⊢ <;> linarith
    rw [val_sgn c (addAssign c u v), val_sgn c (addAssign c u' v'), q2, p2, e, this]
  · have h' : u'.neg ≠ v'.neg := fun hh => h (hs.mpr hh)
    obtain ⟨q1, q2, q3, q4, -⟩ := addAssign_opp hu hv huz hvz h
    obtain ⟨p1, p2, p3, p4, -⟩ := addAssign_opp hu' hv' huz' hvz' h'
    rw [← hM, ← hS] at p2 p3
    rw [← hM] at p4
    exact window_unique (lt_of_lt_of_le (u.ulp_pos c) (le_max_left _ _)) q2 q3 p2 p3 q4 p4

theorem addAssign_comm {c : Cfg} {u v : DW} (hu : Full c u) (hv : Full c v) :
    (addAssign c u v).val c = (addAssign c v u).val c := by
  cases huz : u.isZero
  · cases hvz : v.isZero
    · exact addAssign_congr hu hv hv hu huz hvz hvz huz ⟨Eq.symm, Eq.symm⟩ (add_comm _ _) (add_comm _ _) (max_comm _ _)
    · rw [addAssign_zero_right huz hvz, addAssign_zero_left hvz]
  · rw [addAssign_zero_left huz]
    cases hvz : v.isZero
    · rw [addAssign_zero_right hvz huz]
    · rw [addAssign_zero_left hvz, hu.toWF.isZero_iff.mp huz, hv.toWF.isZero_iff.mp hvz]

theorem addAssign_neg {c : Cfg} {u v : DW} (hu : Full c u) (hv : Full c v) :
    (addAssign c u.negate v.negate).val c = -(addAssign c u v).val c := by
  cases huz : u.isZero
  · cases hvz : v.isZero
    · have huz' : u.negate.isZero = false := by rw [negate_isZero, huz]
      have hvz' : v.negate.isZero = false := by rw [negate_isZero, hvz]
      by_cases h : u.neg = v.neg
      · have h' : u.negate.neg = v.negate.neg := by rw [negate_neg huz, negate_neg hvz, h]
        obtain ⟨q1, q2, q3, q4, q5, q6, q7⟩ := addAssign_same hu hv huz hvz h
        obtain ⟨p1, p2, p3, p4, p5, p6, p7⟩ := addAssign_same (negate_full hu) (negate_full hv) huz' hvz' h'
        rw [negate_val c hu.toWF, negate_val c hv.toWF, abs_neg, abs_neg] at p6 p7
        have e := same_unique q1.toWF p1.toWF q3 p3 q6 q7 p6 p7
        rw [val_sgn c (addAssign c u v), val_sgn c (addAssign c _ _), q2, p2, e, negate_neg huz]
        cases u.neg <;> simp
      · have h' : u.negate.neg ≠ v.negate.neg := by
          rw [negate_neg huz, negate_neg hvz]; intro hh; apply h
          cases a : u.neg <;> cases b : v.neg <;> simp_all
        obtain ⟨q1, q2, q3, ⟨m, q4⟩, -⟩ := addAssign_opp hu hv huz hvz h
        obtain ⟨p1, p2, p3, p4, -⟩ := addAssign_opp (negate_full hu) (negate_full hv) huz' hvz' h'
        rw [negate_val c hu.toWF, negate_val c hv.toWF, negate_ulp, negate_ulp] at p2 p3
        rw [negate_ulp, negate_ulp] at p4
        refine window_unique (lt_of_lt_of_le (u.ulp_pos c) (le_max_left (u.ulp c) (v.ulp c))) p2 p3 ?_ ?_ p4
          ⟨-m, by rw [q4]; push_cast; ring⟩
        · intro hh; obtain ⟨a, b⟩ := q3 (by linarith); constructor <;> linarith
        · intro hh; obtain ⟨a, b⟩ := q2 (by linarith); constructor <;> linarith
    · rw [addAssign_zero_right huz hvz, addAssign_zero_right (by rw [negate_isZero, huz]) (by rw [negate_isZero, hvz]),
        negate_val c hu.toWF]
  · rw [addAssign_zero_left huz, addAssign_zero_left (by rw [negate_isZero, huz]), negate_val c hv.toWF]

theorem subAssign_antisymm {c : Cfg} {u v : DW} (hu : Full c u) (hv : Full c v) :
    (subAssign c u v).val c = -(subAssign c v u).val c := by
  rw [subAssign_val hu hv, subAssign_val hv hu, addAssign_comm (negate_full hv) hu]
  have h := addAssign_neg hu (negate_full hv)
  have hvv : v.negate.negate = v := by
    unfold negate; split
    · rfl
    · next h =>
      have h' : v.isZero = false := by simpa using h
      rw [if_neg (by show ¬ ({ v with neg := !v.neg } : DW).isZero = true; exact h)]
      cases v; simp
  rw [hvv] at h
  rw [h]

theorem subAssign_self {c : Cfg} {u : DW} (hu : Full c u) : (subAssign c u u).val c = 0 := by
  have := subAssign_antisymm hu hu
  linarith

theorem negate_negate (v : DW) : v.negate.negate = v := by
  unfold negate; split
  · rfl
  · next h =>
    rw [if_neg (by show ¬ ({ v with neg := !v.neg } : DW).isZero = true; exact h)]
    cases v; simp

end WD
