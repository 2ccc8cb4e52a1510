import Verif.Model.Util
import Mathlib.Tactic.Linarith
import Mathlib.Tactic.Ring
import Mathlib.Data.List.Lex
import Batteries.Data.List.Perm
/-
  C35, C36, C37: integer-to-text conversion, the slot allocator and dynamic_array.
-/
namespace WD
open Util

/-! ### C35 -/

/-- Specification: the digit a character of a base-10/16 numeral stands for. -/
def charDigit (ch : Char) : ℕ :=
  if 48 ≤ ch.toNat ∧ ch.toNat ≤ 57 then ch.toNat - 48
  else if 65 ≤ ch.toNat ∧ ch.toNat ≤ 70 then ch.toNat - 55
  else if 97 ≤ ch.toNat ∧ ch.toNat ≤ 102 then ch.toNat - 87 else 0

/-- Specification: the number a numeral denotes, most significant digit first. -/
def numeral (base : ℕ) (s : List Char) : ℕ := s.foldl (fun acc ch => acc * base + charDigit ch) 0

theorem charDigit_extract (upper : Bool) : ∀ d, d < 16 → charDigit (extractChar upper d) = d := by
  cases upper <;> decide

/-- Least significant digit first. -/
def revNumeral (base : ℕ) : List Char → ℕ
  | [] => 0
  | ch :: cs => charDigit ch + base * revNumeral base cs

theorem numeral_reverse (base : ℕ) (l : List Char) : numeral base l.reverse = revNumeral base l := by
  induction l with
  | nil => rfl
  | cons a l ih =>
    unfold numeral at ih ⊢
    rw [List.reverse_cons, List.foldl_append, ih]
    simp only [List.foldl_cons, List.foldl_nil, revNumeral]
    ring

theorem revNumeral_append (base : ℕ) (l m : List Char) :
    revNumeral base (l ++ m) = revNumeral base l + base ^ l.length * revNumeral base m := by
  induction l with
  | nil => simp [revNumeral]
  | cons a l ih => simp only [List.cons_append, revNumeral, ih, List.length_cons, pow_succ]; ring

theorem blcLoop_spec {base cap : ℕ} (upper : Bool) (hb : 1 < base) (hb' : base ≤ 16) :
    ∀ (k x : ℕ) (out : List Char), x < base ^ k → out.length + k ≤ cap →
      ∃ ds, blcLoop base cap upper x out = some (out ++ ds) ∧ revNumeral base ds = x ∧ ds.length ≤ k ∧
        (∀ ch ∈ ds, charDigit ch < base) ∧ (∀ h : ds ≠ [], charDigit (ds.getLast h) ≠ 0) ∧ (x ≠ 0 → ds ≠ []) := by
  intro k
  induction k with
  | zero =>
    intro x out hx _
    have : x = 0 := by simpa using hx
    subst this
    refine ⟨[], ?_, rfl, le_refl _, by simp, by simp, by simp⟩
    unfold blcLoop; simp
  | succ k ih =>
    intro x out hx hcap
    by_cases h0 : x = 0
    · subst h0
      refine ⟨[], ?_, rfl, by simp, by simp, by simp, by simp⟩
      unfold blcLoop; simp
    · have hlt : x / base < base ^ k := by
        rw [Nat.div_lt_iff_lt_mul (by omega)]; rwa [pow_succ] at hx
      obtain ⟨ds, e1, e2, e3, e4, e5, e6⟩ := ih (x / base) (out ++ [extractChar upper (x % base)]) hlt (by simp; omega)
      have hd : charDigit (extractChar upper (x % base)) = x % base :=
        charDigit_extract upper _ (lt_of_lt_of_le (Nat.mod_lt _ (by omega)) hb')
      refine ⟨extractChar upper (x % base) :: ds, ?_, ?_, by simp; omega, ?_, ?_, by simp⟩
      · rw [blcLoop, dif_pos ⟨h0, hb⟩, if_pos (by omega), e1]; simp
      · simp only [revNumeral, e2, hd]; exact Nat.mod_add_div x base
      · intro ch hch
        rcases List.mem_cons.mp hch with h | h
        · rw [h, hd]; exact Nat.mod_lt _ (by omega)
        · exact e4 ch h
      · intro h
        by_cases hds : ds = []
        · subst hds
          simp only [List.getLast_singleton, hd]
          have : x / base = 0 := by simpa [revNumeral] using e2.symm
          intro hm
          have := Nat.mod_add_div x base
          rw [hm, ‹x / base = 0›] at this
          omega
        · rw [List.getLast_cons hds]; exact e5 hds

/-- C35. For bases 10 and 16 (and any other base up to 16), every u and every buffer with room for its digits: no write
    past the buffer, the text denotes u, every character is a digit of the base, it fits the buffer, and there is no
    leading zero except for u = 0, which is "0". Hence the text is the canonical numeral. -/
theorem baselexical_cast_canonical (base cap : ℕ) (upper : Bool) (u k : ℕ) (hb : 1 < base) (hb' : base ≤ 16)
    (hu : u < base ^ k) (hk : k ≤ cap) (hk0 : 0 < k) :
    ∃ s, blc base cap upper u = some s ∧ numeral base s = u ∧ s.length ≤ k ∧ (∀ ch ∈ s, charDigit ch < base) ∧
      (u = 0 → s = ['0']) ∧ (u ≠ 0 → ∃ h : s ≠ [], charDigit (s.head h) ≠ 0) := by
  by_cases h0 : u = 0
  · subst h0
    refine ⟨['0'], ?_, ?_, by simp; omega, ?_, fun _ => rfl, fun h => absurd rfl h⟩
    · unfold blc
      rw [if_pos rfl, if_pos (by omega)]
      cases upper <;> decide
    · simp only [numeral, List.foldl_cons, List.foldl_nil, Nat.zero_mul, Nat.zero_add]; decide
    · intro ch hch
      simp only [List.mem_singleton] at hch
      subst hch
      have : charDigit '0' = 0 := by decide
      omega
  · obtain ⟨ds, e1, e2, e3, e4, e5, e6⟩ := blcLoop_spec (cap := cap) upper hb hb' k u [] hu (by simpa using hk)
    refine ⟨ds.reverse, ?_, by rw [numeral_reverse]; exact e2, by simpa using e3, by simpa using e4, fun h => absurd h h0, fun _ => ?_⟩
    · unfold blc; rw [if_neg h0, e1]; simp
    · refine ⟨by simpa using e6 h0, ?_⟩
      rw [List.head_reverse]
      exact e5 _

example : blc 10 20 true 18446744073709551615 = some "18446744073709551615".toList ∧ blc 16 8 true 48879 = some "BEEF".toList ∧
    blc 10 2 true 0 = some ['0'] := by
  decide +kernel

/-- C35, the library's calls: a limb of at most 10^ed - 1 fits its buffer of ed characters and a 64-bit exponent its
    buffer of 20. -/
theorem baselexical_cast_buffers (ed u : ℕ) (hed : 0 < ed) :
    (u < 10 ^ ed → (blc 10 ed true u).isSome) ∧ (u < 2 ^ 64 → (blc 10 20 true u).isSome) := by
  refine ⟨fun h => ?_, fun h => ?_⟩
  · obtain ⟨s, e, -⟩ := baselexical_cast_canonical 10 ed true u ed (by norm_num) (by norm_num) h le_rfl hed
    rw [e]; rfl
  · obtain ⟨s, e, -⟩ := baselexical_cast_canonical 10 20 true u 20 (by norm_num) (by norm_num) (by omega) le_rfl (by norm_num)
    rw [e]; rfl

example : (99999999 : ℕ) < 10 ^ 8 := by norm_num

/-! ### C37 -/

/-- The invariant of the allocator: a flag is set exactly for the live blocks, which are distinct. -/
structure SlotInv (n : ℕ) (s : SlotState) : Prop where
  len : s.flags.length = n
  nodup : s.live.Nodup
  iff : ∀ i, i ∈ s.live ↔ s.flags[i]? = some true

theorem slotAlloc_some {f f' : List Bool} {i : ℕ} (h : slotAlloc f = (some i, f')) :
    f[i]? = some false ∧ f' = f.set i true ∧ ∀ j < i, f[j]? = some true := by
  unfold slotAlloc at h
  split at h
  · rename_i k hk
    obtain ⟨rfl, rfl⟩ := Prod.mk.inj h |>.imp Option.some.inj id
    obtain ⟨h1, h2, h3⟩ := List.findIdx?_eq_some_iff_getElem.mp hk
    refine ⟨?_, rfl, fun j hj => ?_⟩
    · rw [List.getElem?_eq_getElem h1]; simpa using h2
    · have := h3 j hj
      rw [List.getElem?_eq_getElem (by omega)]; simpa using this
  · simp at h

theorem slotAlloc_none {f f' : List Bool} (h : slotAlloc f = (none, f')) : f' = f ∧ ∀ i < f.length, f[i]? = some true := by
  unfold slotAlloc at h
  split at h
  · simp at h
  · rename_i hk
    refine ⟨(Prod.mk.inj h).2.symm, fun i hi => ?_⟩
    have := List.findIdx?_eq_none_iff.mp hk (f[i]) (List.getElem_mem hi)
    rw [List.getElem?_eq_getElem hi]
    simpa using this

theorem slotInv_init (n : ℕ) : SlotInv n (slotInit n) := by
  refine ⟨by simp [slotInit], by simp [slotInit], fun i => ?_⟩
  simp [slotInit, List.getElem?_replicate]

theorem slotInv_step {n : ℕ} {s : SlotState} (h : SlotInv n s) (op : SlotOp) : SlotInv n (slotStep s op) := by
  cases op with
  | alloc =>
    unfold slotStep
    rcases hh : slotAlloc s.flags with ⟨_ | i, f⟩
    · obtain ⟨rfl, -⟩ := slotAlloc_none hh
      exact h
    · obtain ⟨h1, rfl, -⟩ := slotAlloc_some hh
      refine ⟨by simp [h.len], ?_, fun j => ?_⟩
      · simp only [List.nodup_cons]
        refine ⟨fun hm => ?_, h.nodup⟩
        have := (h.iff i).mp hm
        rw [h1] at this; simp at this
      · simp only [List.mem_cons, h.iff, List.getElem?_set]
        have hi : i < s.flags.length := by
          by_contra hc
          rw [List.getElem?_eq_none (by omega)] at h1; simp at h1
        by_cases hij : i = j
        · subst hij; simp [hi]
        · simp [hij, show j ≠ i from fun h => hij h.symm]
  | free p =>
    cases p with
    | none => exact ⟨h.len, h.nodup, h.iff⟩
    | some i =>
      have hf : (slotStep s (.free (some i))) = { flags := slotFree s.flags (some i), live := s.live.erase i } := rfl
      rw [hf]
      refine ⟨?_, h.nodup.erase i, fun j => ?_⟩
      · show (slotFree s.flags (some i)).length = n
        unfold slotFree; simp only; split <;> simp [h.len]
      · show j ∈ s.live.erase i ↔ (slotFree s.flags (some i))[j]? = some true
        rw [h.nodup.mem_erase_iff, h.iff]
        unfold slotFree; simp only
        by_cases hi : i < s.flags.length
        · rw [if_pos hi, List.getElem?_set]
          by_cases hij : i = j
          · subst hij; simp [hi]
          · simp [hij, show j ≠ i from fun h => hij h.symm]
        · rw [if_neg hi]
          constructor
          · exact fun h => h.2
          · intro hj
            refine ⟨?_, hj⟩
            rintro rfl
            rw [List.getElem?_eq_none (by omega)] at hj; simp at hj

theorem slotInv_run (n : ℕ) (ops : List SlotOp) : SlotInv n (slotRun n ops) := by
  unfold slotRun
  suffices ∀ s, SlotInv n s → SlotInv n (ops.foldl slotStep s) from this _ (slotInv_init n)
  induction ops with
  | nil => exact fun s h => h
  | cons op ops ih => exact fun s h => ih _ (slotInv_step h op)

/-- C37. After any history of allocate/deallocate calls, the blocks in use are distinct and in range, and one more
    allocation either returns a slot that is in range and not in use, or null exactly when all n slots are in use.
    (`live` is the list of blocks returned by `allocate` and not passed to `deallocate` since.) -/
theorem slot_allocator_fresh (n : ℕ) (ops : List SlotOp) :
    (slotRun n ops).live.Nodup ∧ (∀ i ∈ (slotRun n ops).live, i < n) ∧
    (∀ i, (slotAlloc (slotRun n ops).flags).1 = some i → i < n ∧ i ∉ (slotRun n ops).live) ∧
    ((slotAlloc (slotRun n ops).flags).1 = none ↔ (slotRun n ops).live.length = n) := by
  have h := slotInv_run n ops
  set s := slotRun n ops
  have hr : ∀ i ∈ s.live, i < n := by
    intro i hi
    have := (h.iff i).mp hi
    by_contra hc
    rw [List.getElem?_eq_none (by rw [h.len]; omega)] at this; simp at this
  have hle : s.live.length ≤ n := by
    have hsub : s.live ⊆ List.range n := fun i hi => List.mem_range.mpr (hr i hi)
    have := (List.subperm_of_subset h.nodup hsub).length_le
    simpa using this
  refine ⟨h.nodup, hr, fun i hi => ?_, ?_⟩
  · rcases hh : slotAlloc s.flags with ⟨_ | k, f⟩
    · rw [hh] at hi; simp at hi
    · rw [hh] at hi
      obtain rfl := Option.some.inj hi
      obtain ⟨h1, -, -⟩ := slotAlloc_some hh
      refine ⟨?_, fun hm => ?_⟩
      · by_contra hc
        rw [List.getElem?_eq_none (by rw [h.len]; omega)] at h1; simp at h1
      · rw [(h.iff _).mp hm] at h1; simp at h1
  · constructor
    · intro hn
      rcases hh : slotAlloc s.flags with ⟨_ | k, f⟩
      · obtain ⟨-, h2⟩ := slotAlloc_none hh
        have hsub : List.range n ⊆ s.live := fun i hi => (h.iff i).mpr (h2 i (by rw [h.len]; exact List.mem_range.mp hi))
        have := (List.subperm_of_subset List.nodup_range hsub).length_le
        simp at this
        omega
      · rw [hh] at hn; simp at hn
    · intro hl
      rcases hh : slotAlloc s.flags with ⟨_ | k, f⟩
      · rfl
      · exfalso
        obtain ⟨h1, -, -⟩ := slotAlloc_some hh
        have hk : k ∉ s.live := fun hm => by rw [(h.iff _).mp hm] at h1; simp at h1
        have hkn : k < n := by
          by_contra hc
          rw [List.getElem?_eq_none (by rw [h.len]; omega)] at h1; simp at h1
        have hnd : (k :: s.live).Nodup := List.nodup_cons.mpr ⟨hk, h.nodup⟩
        have hsub : (k :: s.live) ⊆ List.range n := by
          intro i hi
          rcases List.mem_cons.mp hi with rfl | hi
          · exact List.mem_range.mpr hkn
          · exact List.mem_range.mpr (hr i hi)
        have := (List.subperm_of_subset hnd hsub).length_le
        simp at this
        omega

example : (slotRun 3 [.alloc, .alloc, .free (some 0), .alloc, .alloc]).live = [2, 0, 1] := by decide

/-- C37, deallocate frees exactly the given slot: the other live blocks stay live, the freed one can be handed out again. -/
theorem slot_free_exact (n : ℕ) (ops : List SlotOp) (p : ℕ) (hp : p ∈ (slotRun n ops).live) :
    (∀ i, i ∈ (slotRun n (ops ++ [.free (some p)])).live ↔ i ∈ (slotRun n ops).live ∧ i ≠ p) ∧
    (slotAlloc (slotRun n (ops ++ [.free (some p)])).flags).1 ≠ none := by
  have h := slotInv_run n ops
  have e : slotRun n (ops ++ [.free (some p)]) = slotStep (slotRun n ops) (.free (some p)) := by
    unfold slotRun; rw [List.foldl_append]; rfl
  have e2 : (slotStep (slotRun n ops) (.free (some p))).live = (slotRun n ops).live.erase p := rfl
  refine ⟨fun i => ?_, fun hn => ?_⟩
  · rw [e, e2, h.nodup.mem_erase_iff, and_comm]
  · have h1 := (slot_allocator_fresh n (ops ++ [.free (some p)])).2.2.2.mp hn
    rw [e, e2, List.length_erase_of_mem hp] at h1
    have hsub : (slotRun n ops).live ⊆ List.range n :=
      fun i hi => List.mem_range.mpr ((slot_allocator_fresh n ops).2.1 i hi)
    have := (List.subperm_of_subset h.nodup hsub).length_le
    have hpos := List.length_pos_of_mem hp
    simp at this
    omega

example : (0 : ℕ) ∈ (slotRun 3 [.alloc, .alloc]).live := by decide

end WD
