import Verif.Model.Driver
import Verif.Spec.Policy
import Mathlib.Tactic.IntervalCases
/-! # Lemmas about the driver: attribute names, markers, comparison trees -/
set_option linter.unusedSimpArgs false
set_option linter.unusedSectionVars false
set_option autoImplicit false
namespace Abe

/-! ## Names -/

/-- No empty piece between colons: `p` says that the previous byte is a colon or the start. The last
piece must be non-empty too. -/
def canonAux : Bool → Bytes → Bool
  | p, [] => !p
  | p, c :: cs => if c = 58 then !p && canonAux true cs else canonAux false cs

/-- Like `canonAux` but a trailing colon is allowed. -/
def noDbl : Bool → Bytes → Bool
  | _, [] => true
  | p, c :: cs => if c = 58 then !p && noDbl true cs else noDbl false cs

theorem splitAux_join : ∀ (s cur : Bytes), canonAux (decide (cur = [])) s = true →
    splitAux 58 cur s ≠ [] ∧ joinColon (splitAux 58 cur s) = cur ++ s
  | [], cur, h => by
    have : cur ≠ [] := by simpa [canonAux] using h
    simp [splitAux, this, joinColon]
  | c :: cs, cur, h => by
    by_cases hc : c = 58
    · subst hc
      simp only [canonAux, if_true, Bool.and_eq_true, Bool.not_eq_true', decide_eq_false_iff_not] at h
      have ih := splitAux_join cs [] (by simpa using h.2)
      simp only [splitAux, if_true, if_neg h.1]
      cases hs : splitAux 58 [] cs with
      | nil => exact absurd hs ih.1
      | cons x xs =>
        rw [hs] at ih
        simp only [joinColon, ih.2]
        simp
    · have h' : canonAux false cs = true := by simpa [canonAux, hc] using h
      have ih := splitAux_join cs (cur ++ [c]) (by simpa using h')
      simp only [splitAux, if_neg hc]
      refine ⟨ih.1, ?_⟩
      rw [ih.2]; simp

/-- The label a leaf built from the text `c` will carry. -/
def normLabel (c : Bytes) : Res Bytes := (checkAttribute c).bind fun pa => .ok (completeLabel pa.1 pa.2)

theorem splitAux_cur_ne : ∀ (s cur : Bytes), cur ≠ [] → ∃ p r, splitAux 58 cur s = p :: r ∧ p ≠ []
  | [], cur, h => by simp [splitAux, h]
  | c :: cs, cur, h => by
    simp only [splitAux, if_neg h]
    split
    · exact ⟨_, _, rfl, h⟩
    · exact splitAux_cur_ne cs _ (by simp)

theorem splitAux_pieces : ∀ (s cur : Bytes), ∀ p ∈ splitAux 58 cur s, p ≠ []
  | [], cur, p, hp => by
    simp only [splitAux] at hp
    split at hp
    · cases hp
    · rename_i h; simp at hp; subst hp; exact h
  | c :: cs, cur, p, hp => by
    simp only [splitAux] at hp
    split at hp
    · split at hp
      · exact splitAux_pieces cs [] p hp
      · rename_i h
        rcases List.mem_cons.mp hp with hp | hp
        · subst hp; exact h
        · exact splitAux_pieces cs [] p hp
    · exact splitAux_pieces cs _ p hp

theorem splitAux_two : ∀ (s cur : Bytes), canonAux (decide (cur = [])) s = true → (58 : UInt8) ∈ s →
    ∃ p q r, splitAux 58 cur s = p :: q :: r ∧ p ≠ []
  | [], cur, _, hm => by cases hm
  | c :: cs, cur, h, hm => by
    by_cases hc : c = 58
    · subst hc
      simp only [canonAux, if_true, Bool.and_eq_true, Bool.not_eq_true', decide_eq_false_iff_not] at h
      have ih := splitAux_join cs [] (by simpa using h.2)
      simp only [splitAux, if_true, if_neg h.1]
      cases hs : splitAux 58 [] cs with
      | nil => exact absurd hs ih.1
      | cons x xs => exact ⟨_, _, _, rfl, h.1⟩
    · have h' : canonAux false cs = true := by simpa [canonAux, hc] using h
      simp only [splitAux, if_neg hc]
      apply splitAux_two cs (cur ++ [c]) (by simpa using h')
      rcases List.mem_cons.mp hm with hm | hm
      · exact absurd hm.symm hc
      · exact hm

/-- A name without empty pieces is kept by `check_attribute`. -/
theorem checkAttribute_canon {c : Bytes} (h : canonAux true c = true) :
    ∃ p a, checkAttribute c = .ok (p, a) ∧ completeLabel p a = c := by
  unfold checkAttribute
  by_cases hm : (58 : UInt8) ∈ c
  · rw [if_pos hm]
    obtain ⟨p, q, r, hs, hp⟩ := splitAux_two c [] (by simpa using h) hm
    have hj := (splitAux_join c [] (by simpa using h)).2
    refine ⟨p, joinColon (q :: r), ?_, ?_⟩
    · simp [split, hs]
    · rw [hs] at hj
      simp only [completeLabel, if_pos hp]
      simpa [joinColon] using hj
  · rw [if_neg hm]
    exact ⟨[], c, rfl, by simp [completeLabel]⟩

theorem canonAux_append {s : Bytes} (hs : canonAux true s = true) (h58 : s.head? ≠ some 58) :
    ∀ (base : Bytes) (p : Bool), noDbl p base = true → canonAux p (base ++ s) = true
  | [], p, _ => by
    cases s with
    | nil => simp [canonAux] at hs
    | cons x xs =>
      have : x ≠ 58 := by simpa using h58
      simp only [List.nil_append, canonAux, if_neg this] at hs ⊢
      exact hs
  | c :: cs, p, h => by
    by_cases hc : c = 58
    · subst hc
      simp only [noDbl, if_true, Bool.and_eq_true] at h
      simp only [List.cons_append, canonAux, if_true, h.1, Bool.true_and]
      exact canonAux_append hs h58 cs true h.2
    · simp only [noDbl, if_neg hc] at h
      simp only [List.cons_append, canonAux, if_neg hc]
      exact canonAux_append hs h58 cs false h

/-! ## Markers -/

/-- The part of a marker after the attribute name. -/
def msuf (w bit : Nat) (v : Bool) : Bytes :=
  b!"_expint" ++ (List.replicate (2 - (natDec w).length) (48 : UInt8) ++ natDec w) ++ b!"_" ++
    (List.replicate (32 - bit - 1) 120 ++ (if v then b!"1" else b!"0") ++ List.replicate bit 120)

theorem bitMarker_eq (base : Bytes) (bit : Nat) (v : Bool) (w : Nat) :
    bitMarker false base bit v w = base ++ msuf w bit v := by
  simp [bitMarker, msuf]

/-- Supported widths. -/
def Width (w : Nat) : Prop := w = 4 ∨ w = 8 ∨ w = 16 ∨ w = 32

instance (w : Nat) : Decidable (Width w) := by unfold Width; infer_instance

theorem Width.mem {w : Nat} (h : Width w) : w ∈ [4, 8, 16, 32] := by
  rcases h with h | h | h | h <;> subst h <;> decide

theorem msuf_facts : ∀ w ∈ [4, 8, 16, 32], ∀ bit, bit < 32 → ∀ v : Bool,
    canonAux true (msuf w bit v) = true ∧ (msuf w bit v).head? ≠ some 58 := by
  decide +kernel

/-- Reads back the width, bit number and value from a marker suffix. -/
def mread (s : Bytes) : Bytes × Nat × Bool :=
  let t := s.drop 10
  ((s.drop 7).take 2, 31 - (t.takeWhile (· == 120)).length, (t.dropWhile (· == 120)).head? == some 49)

theorem mread_msuf : ∀ w ∈ [4, 8, 16, 32], ∀ bit, bit < 32 → ∀ v : Bool,
    mread (msuf w bit v) = ((List.replicate (2 - (natDec w).length) (48 : UInt8) ++ natDec w), bit, v) := by
  decide +kernel

theorem wread_inj : ∀ w ∈ [4, 8, 16, 32], ∀ w' ∈ [4, 8, 16, 32],
    List.replicate (2 - (natDec w).length) (48 : UInt8) ++ natDec w =
      List.replicate (2 - (natDec w').length) (48 : UInt8) ++ natDec w' → w = w' := by
  decide +kernel

theorem msuf_inj {w w' bit bit' : Nat} {v v' : Bool} (hw : Width w) (hw' : Width w')
    (hb : bit < 32) (hb' : bit' < 32) (h : msuf w bit v = msuf w' bit' v') :
    w = w' ∧ bit = bit' ∧ v = v' := by
  have h1 := mread_msuf w hw.mem bit hb v
  have h2 := mread_msuf w' hw'.mem bit' hb' v'
  rw [h, h2] at h1
  simp only [Prod.mk.injEq] at h1
  exact ⟨wread_inj w hw.mem w' hw'.mem h1.1.symm, h1.2.1.symm, h1.2.2.symm⟩

theorem msuf_length : ∀ w ∈ [4, 8, 16, 32], ∀ bit, bit < 32 → ∀ v : Bool, (msuf w bit v).length = 42 := by
  decide +kernel

theorem mem_assignLoop {base : Bytes} {w v : Nat} : ∀ {n : Nat} {m : Bytes},
    m ∈ assignLoop false base w v n ↔ ∃ i, i < n ∧ m = base ++ msuf w i (v.testBit i)
  | 0, m => by simp [assignLoop]
  | n + 1, m => by
    simp only [assignLoop, List.mem_cons, mem_assignLoop, bitMarker_eq]
    constructor
    · rintro (h | ⟨i, hi, h⟩)
      · exact ⟨n, Nat.lt_succ_self n, h⟩
      · exact ⟨i, Nat.lt_succ_of_lt hi, h⟩
    · rintro ⟨i, hi, h⟩
      by_cases hn : i = n
      · subst hn; exact Or.inl h
      · exact Or.inr ⟨i, by omega, h⟩

/-- Number of markers an assignment of width `w` produces. -/
def markerCount (w : Nat) : Nat := if w < 32 then w + 2 else w

theorem checkValidBit_iff (v b : UInt32) :
    checkValidBit v b = true ↔ Width b.toNat ∧ v.toNat ≤ 2 ^ b.toNat - 1 := by
  unfold checkValidBit
  by_cases hr : b < 4 ∨ b > 32
  · rw [if_pos hr]
    have : ¬ Width b.toNat := by
      intro h
      rcases hr with h1 | h1
      · have := UInt32.lt_iff_toNat_lt.mp h1
        rcases h with h | h | h | h <;> simp [h] at this
      · have := UInt32.lt_iff_toNat_lt.mp h1
        rcases h with h | h | h | h <;> simp [h] at this
    simp [this]
  · rw [if_neg hr]
    have h4 : 4 ≤ b.toNat ∧ b.toNat ≤ 32 := by
      have h1 := fun h => hr (Or.inl h)
      have h2 := fun h => hr (Or.inr h)
      have h1' := UInt32.not_lt.mp h1
      have h2' := UInt32.not_lt.mp h2
      exact ⟨UInt32.le_iff_toNat_le.mp h1', UInt32.le_iff_toNat_le.mp h2'⟩
    obtain ⟨n, hn⟩ : ∃ n, n = b.toNat := ⟨_, rfl⟩
    have hb : b = UInt32.ofNat n := by rw [hn]; simp
    rw [← hn] at h4 ⊢
    have hv : v.toNat < 2 ^ 32 := v.toNat_lt
    subst hb
    obtain ⟨ha, hb⟩ := h4
    clear hr hn
    have hno : ∀ {P Q : Prop} [Decidable P] {x : Bool}, P → ¬ Q →
        ((if P then false else x) = true ↔ Q) := by
      intro P Q _ x h1 h2; simp [h1, h2]
    interval_cases n <;>
      first
      | exact hno (by decide) (fun h => absurd h.1 (by decide))
      | (rw [if_neg (by decide)]
         simp only [Width, gt_iff_lt, UInt32.lt_iff_toNat_lt]
         simp
         try omega)

theorem mem_assignStmt {base : Bytes} {w : Nat} {v : UInt32} (hw : Width w) (hv : v.toNat < 2 ^ w)
    {m : Bytes} :
    m ∈ assignStmt base ⟨v, w⟩ ↔ ∃ i, i < markerCount w ∧ m = base ++ msuf w i (v.toNat.testBit i) := by
  have hw0 : w ≠ 0 := by rcases hw with h | h | h | h <;> subst h <;> decide
  have hc : checkValidBit v (UInt32.ofNat w) = true := by
    rw [checkValidBit_iff]
    have : (UInt32.ofNat w).toNat = w := by rcases hw with h | h | h | h <;> subst h <;> rfl
    rw [this]
    exact ⟨hw, by omega⟩
  unfold assignStmt
  simp only [hw0, if_false, decide_false, Bool.false_eq_true, not_false_eq_true, true_and, hc, not_true_eq_false]
  rw [mem_assignLoop]
  simp [markerCount, hw0]

end Abe
