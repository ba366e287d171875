import Verif.Model.Element
import Verif.Proof.Container
import Verif.Props.LSSS
import Mathlib.Data.Fintype.Card
import Mathlib.Data.Fintype.Pi
import Mathlib.SetTheory.Cardinal.Finite
/-!
# Group elements (C99) and the random coefficients (C100)
-/
set_option linter.unusedSimpArgs false
set_option linter.unusedSectionVars false
set_option autoImplicit false
namespace Abe
open LsssEx
variable {G : Type}

/-! ### C99 -/

/-- What RELIC promises for a curve group: reading what was written under either setting of the flag gives the
element back; an element takes one byte or as many bytes as the generator; lengths fit the 32 bit prefix. -/
structure Elem.Format.Lawful (f : Elem.Format G) : Prop where
  read : ∀ flag x, f.read (f.write flag x) = .ok x
  size : ∀ flag x, (f.write flag x).length = 1 ∨ (f.write flag x).length = (f.write flag f.gen).length
  fits : ∀ flag x, (f.write flag x).length < 2 ^ 32
  some : ∀ flag x, f.write flag x ≠ []

/-- A serialized element is read back, whatever the object held before, if the flag has not changed. -/
theorem C99_same_flag_partial (f : Elem.Format G) (hf : f.Lawful) (tag : UInt8) (flag : Int) (x this : G) :
    Elem.deserialize f tag flag this (Elem.serialize f tag flag x) = .ok x := by
  obtain ⟨j, hj⟩ := smartUnpack_group tag (f.write flag x) (hf.some flag x) (hf.fits flag x)
  have h0 : BS.atR (Elem.serialize f tag flag x) 0 = .ok tag := by
    unfold Elem.serialize groupSerialize
    rw [BS.smartPack_append]
    rfl
  unfold Elem.deserialize groupDeserialize
  rw [h0, Res.ok_bind, if_pos rfl]
  unfold Elem.serialize
  rw [hj]
  simp only [Res.ok_bind]
  rw [if_neg, hf.read]
  rintro ⟨h1, h2⟩
  rcases hf.size flag x with h | h
  · exact h1 h
  · exact h2 h

/-- If the flag was changed between writing and reading, every element other than those written as one byte ends the
process. -/
theorem C99_other_flag_violated (f : Elem.Format G) (hf : f.Lawful) (tag : UInt8) (flag flag' : Int) (x this : G)
    (h1 : (f.write flag x).length ≠ 1) (h2 : (f.write flag f.gen).length ≠ (f.write flag' f.gen).length) :
    Elem.deserialize f tag flag' this (Elem.serialize f tag flag x) = .abort := by
  obtain ⟨j, hj⟩ := smartUnpack_group tag (f.write flag x) (hf.some flag x) (hf.fits flag x)
  have h0 : BS.atR (Elem.serialize f tag flag x) 0 = .ok tag := by
    unfold Elem.serialize groupSerialize
    rw [BS.smartPack_append]
    rfl
  unfold Elem.deserialize groupDeserialize
  rw [h0, Res.ok_bind, if_pos rfl]
  unfold Elem.serialize
  rw [hj]
  simp only [Res.ok_bind]
  rw [if_pos]
  refine ⟨h1, ?_⟩
  rcases hf.size flag x with h | h
  · exact absurd h h1
  · rw [h]; exact h2

/-- Elements of `GT` are read under either setting. -/
theorem C99_gt_any_flag (f : Elem.Format G) (hf : f.Lawful) (flag : Int) (x this : G) :
    Elem.gtDeserializeTagged f this (Elem.serialize f 0xB4 flag x) = .ok x := by
  obtain ⟨j, hj⟩ := smartUnpack_group 0xB4 (f.write flag x) (hf.some flag x) (hf.fits flag x)
  have h0 : BS.atR (Elem.serialize f 0xB4 flag x) 0 = .ok 0xB4 := by
    unfold Elem.serialize groupSerialize
    rw [BS.smartPack_append]
    rfl
  unfold Elem.gtDeserializeTagged gtDeserialize
  rw [h0, Res.ok_bind, if_pos rfl]
  unfold Elem.serialize
  rw [hj]
  simp only [Res.ok_bind]
  exact hf.read flag x

/-- The key derived from an element of `GT` depends on the flag: if the two formats of the element differ then the
two digests agree only at a collision of the hash function. -/
theorem C99_gt_hash_depends_on_flag_violated (f : Elem.Format G) (hf : f.Lawful) (md : Bytes → Bytes)
    (flag flag' : Int) (x : G) (hd : f.write flag x ≠ f.write flag' x)
    (h : Elem.gtHash f md flag x = Elem.gtHash f md flag' x) : ∃ a b, a ≠ b ∧ md a = md b := by
  refine ⟨_, _, ?_, h⟩
  intro e
  obtain ⟨j, hj⟩ := smartUnpack_group 0xB4 (f.write flag x) (hf.some flag x) (hf.fits flag x)
  obtain ⟨j', hj'⟩ := smartUnpack_group 0xB4 (f.write flag' x) (hf.some flag' x) (hf.fits flag' x)
  unfold Elem.serialize at e
  rw [e, hj'] at hj
  simp only [Res.ok.injEq, Prod.mk.injEq] at hj
  exact hd hj.1.symm

/-- `set_compression_flag` accepts 0 and 1 and ignores everything else. -/
theorem C99_flag_is_binary (flag value : Int) (h : flag = 0 ∨ flag = 1) :
    (Elem.setFlag flag value = 0 ∨ Elem.setFlag flag value = 1) ∧
      (value = 0 ∨ value = 1 → Elem.setFlag flag value = value) := by
  unfold Elem.setFlag
  by_cases hv : value = 0 ∨ value = 1
  · rw [if_pos hv]; exact ⟨hv, fun _ => rfl⟩
  · rw [if_neg hv]; exact ⟨h, fun h => absurd h hv⟩

/-- `x - y` in the curve groups is `-y`: it is the difference only if `x` is the identity. -/
theorem C99_subtraction_violated [AddGroup G] (x y : G) : Elem.sub x y = x - y ↔ x = 0 := by
  unfold Elem.sub
  rw [sub_eq_add_neg]
  constructor
  · intro h; simpa using h
  · rintro rfl; simp

/-- In particular `x - x` is not the identity. -/
theorem C99_self_difference_violated [AddGroup G] (x : G) (hx : x ≠ 0) : Elem.sub x x ≠ 0 := by
  unfold Elem.sub; simpa using hx

/-- The other operators do what they say. -/
theorem C99_group_operators {H : Type} [AddGroup G] [Group H] (x y : G) (a b : H) :
    Elem.add x y = x + y ∧ Elem.gtMul a b = a * b ∧ Elem.gtDiv a b = a / b ∧
      Elem.gtMul (Elem.gtDiv a b) b = a := by
  refine ⟨rfl, rfl, ?_, ?_⟩
  · simp [Elem.gtDiv, div_eq_mul_inv]
  · simp [Elem.gtDiv, Elem.gtMul]

namespace ElemEx

/-- the group of two elements, written as one byte (identity) or, for the other element, as two bytes with the
flag set and three bytes without -/
def fmt : Elem.Format Bool where
  gen := true
  write flag x := if x then (if flag = 1 then [4, 7] else [2, 7, 7]) else [0]
  read b := if b = [0] then .ok false else .ok true

theorem fmt_lawful : fmt.Lawful := by
  refine ⟨?_, ?_, ?_, ?_⟩
  · intro flag x
    cases x
    · rfl
    · simp only [fmt, if_true]
      split <;> rfl
  · intro flag x
    cases x
    · exact .inl rfl
    · exact .inr rfl
  · intro flag x
    cases x
    · simp [fmt]
    · simp only [fmt, if_true]
      split <;> simp
  · intro flag x
    cases x
    · simp [fmt]
    · simp only [fmt, if_true]
      split <;> simp

example : fmt.Lawful ∧ (fmt.write 1 true).length ≠ 1 ∧ (fmt.write 1 fmt.gen).length ≠ (fmt.write 0 fmt.gen).length ∧
    fmt.write 1 true ≠ fmt.write 0 true := ⟨fmt_lawful, by decide, by decide, by decide⟩

end ElemEx

/-! ### C100 -/

section
variable {F : Type} [Field F] [DecidableEq F]

/-- the policy `a and b` -/
def andAB : Policy := { root := some (and2 (lf b!"a" 0) (lf b!"b" 0)) }

/-- If the random coefficients are never zero, the holder of one of two attributes learns something: a share equal
to `s` is seen for every secret other than `s`, and never for `s`. -/
theorem C100_nonzero_draws_violated (s s' : F) (h : s ≠ s') :
    let v : SMap (Bytes × F) := [(b!"a", b!"a", s)]
    (∀ tape : Nat → F, (∀ i, tape i ≠ 0) → ¬ Shows andAB [b!"a"] s tape v) ∧
    ∃ tape : Nat → F, (∀ i, tape i ≠ 0) ∧ Shows andAB [b!"a"] s' tape v := by
  have hsh : ∀ (x : F) (tape : Nat → F), shareSecret false {} (some andAB) x tape =
      .ok ({ results := [(b!"a", b!"a", 0 + x * ((0 + 1 : Nat) : F) ^ 0 + tape 1 * ((0 + 1 : Nat) : F) ^ 1),
        (b!"b", b!"b", 0 + x * ((1 + 1 : Nat) : F) ^ 0 + tape 1 * ((1 + 1 : Nat) : F) ^ 1)] }, 2) := by
    intro x tape; rfl
  intro v
  constructor
  · rintro tape hz ⟨o, n, ho, hv⟩
    rw [hsh] at ho
    simp only [Res.ok.injEq, Prod.mk.injEq] at ho
    rw [← ho.1] at hv
    simp [viewOf, v] at hv
    exact hz 1 hv
  · refine ⟨fun _ => s - s', fun _ => sub_ne_zero.mpr h, ?_⟩
    refine ⟨_, _, hsh s' _, ?_⟩
    simp [viewOf, v]

/-- With coefficients drawn from the non-zero elements what an unauthorised set learns is bounded: for every test
`D` on what it sees, the number of tapes on which the test succeeds differs between two secrets by at most the
number of tapes that contain a zero, `q^n - (q-1)^n` out of `q^n`. -/
theorem C100_bounded_leak_partial [Fintype F] (p : Policy) (t : TNode) (A : List Bytes)
    (hroot : p.root = some t) (hpos : PosGates t) (hidx : ∀ l ∈ leaves t, l.idx.isSome)
    (hchar : ∀ k, 0 < k → k ≤ t.size → (k : F) ≠ 0) (hunsat : sat A t = false)
    (n : Nat) (hn : ∀ s tape o k, shareSecret false {} (some p) s tape = .ok ((o : LSSS F), k) → k ≤ n)
    (s s' : F) (D : SMap (Bytes × F) → Prop) :
    Nat.card { f : Fin n → F // (∀ i, f i ≠ 0) ∧ ∃ v, Shows p A s (tapeOf f) v ∧ D v } ≤
      Nat.card { f : Fin n → F // (∀ i, f i ≠ 0) ∧ ∃ v, Shows p A s' (tapeOf f) v ∧ D v } +
        (Fintype.card F ^ n - (Fintype.card F - 1) ^ n) := by
  classical
  obtain ⟨δn, htape⟩ := views_shift p t A hroot hpos hidx hchar hunsat n hn s s'
  let P : (Fin n → F) → Prop := fun f => ∃ v, Shows p A s (tapeOf f) v ∧ D v
  let P' : (Fin n → F) → Prop := fun f => ∃ v, Shows p A s' (tapeOf f) v ∧ D v
  let N : (Fin n → F) → Prop := fun f => ∀ i, f i ≠ 0
  have hPP : ∀ f, P' (f + δn) ↔ P f := fun f => exists_congr fun v => and_congr_left fun _ => htape f v
  have hcardP : Fintype.card { f // P f } = Fintype.card { f // P' f } :=
    Fintype.card_congr (Equiv.subtypeEquiv (Equiv.addRight δn) fun f => (hPP f).symm)
  have h1 : Fintype.card { f // N f ∧ P f } ≤ Fintype.card { f // P f } :=
    Fintype.card_subtype_mono _ _ (fun f h => h.2)
  have h2 : Fintype.card { f // P' f } ≤ Fintype.card { f // N f ∧ P' f } + Fintype.card { f // ¬ N f } := by
    refine le_trans ?_ (Fintype.card_subtype_or (fun f => N f ∧ P' f) (fun f => ¬ N f))
    refine Fintype.card_subtype_mono _ _ ?_
    intro f hf
    by_cases h : N f
    · exact .inl ⟨h, hf⟩
    · exact .inr h
  have h3 : Fintype.card { f // N f } = (Fintype.card F - 1) ^ n := by
    have e : { f : Fin n → F // N f } ≃ (Fin n → { x : F // x ≠ 0 }) :=
      { toFun := fun f i => ⟨f.1 i, f.2 i⟩
        invFun := fun g => ⟨fun i => (g i).1, fun i => (g i).2⟩
        left_inv := fun f => rfl
        right_inv := fun g => rfl }
    rw [Fintype.card_congr e, Fintype.card_fun, Fintype.card_fin]
    congr 1
    rw [Fintype.card_subtype_compl]
    simp
  have h4 : Fintype.card { f // ¬ N f } = Fintype.card F ^ n - (Fintype.card F - 1) ^ n := by
    rw [Fintype.card_subtype_compl, h3, Fintype.card_fun, Fintype.card_fin]
  rw [Nat.card_eq_fintype_card, Nat.card_eq_fintype_card]
  rw [← h4]
  calc Fintype.card { f // N f ∧ P f } ≤ Fintype.card { f // P f } := h1
    _ = Fintype.card { f // P' f } := hcardP
    _ ≤ _ := h2

end
end Abe
