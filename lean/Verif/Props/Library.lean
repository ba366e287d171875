import Verif.Model.Library
import Mathlib.Data.List.Induction
import Mathlib.Tactic.ByContra
set_option linter.unusedSimpArgs false
set_option linter.unusedSectionVars false
set_option autoImplicit false
namespace Abe
/-!
# Library state, scheme identifiers, reference counts: properties C69, C70, C87
-/

/-! ### C69 -/
namespace Lib

/-- There was an initialisation after which nothing shut the library down. -/
def Live (cs : List Call) : Prop := ∃ a ok b, cs = a ++ Call.init ok :: b ∧ Call.shutdown ∉ b

/-- The initialisation that counts, the first one after the last shutdown, failed in the math library. -/
def Broken (cs : List Call) : Prop :=
  ∃ a b, cs = a ++ Call.init false :: b ∧ Call.shutdown ∉ b ∧ ¬ Live a

theorem run_snoc (cs : List Call) (c : Call) : run (cs ++ [c]) = ((run cs).call c).2 := by
  simp [run, List.foldl_append]

theorem live_snoc (cs : List Call) (c : Call) :
    Live (cs ++ [c]) ↔ (∃ ok, c = .init ok) ∨ (c ≠ .shutdown ∧ Live cs) := by
  constructor
  · rintro ⟨a, ok, b, h, hb⟩
    rcases List.eq_nil_or_concat b with rfl | ⟨b', d, rfl⟩
    · have := List.append_inj' h rfl
      left; exact ⟨ok, by simpa using this.2⟩
    · have h' : cs ++ [c] = (a ++ Call.init ok :: b') ++ [d] := by simpa using h
      have := List.append_inj' h' rfl
      obtain ⟨h1, h2⟩ := this
      cases h2
      right
      refine ⟨fun e => hb (by simp [e]), a, ok, b', h1, fun m => hb (by simp [m])⟩
  · rintro (⟨ok, rfl⟩ | ⟨hc, a, ok, b, rfl, hb⟩)
    · exact ⟨cs, ok, [], rfl, by simp⟩
    · refine ⟨a, ok, b ++ [c], by simp, ?_⟩
      simp only [List.mem_append, List.mem_singleton, not_or]
      exact ⟨hb, fun e => hc e.symm⟩

theorem broken_snoc (cs : List Call) (c : Call) :
    Broken (cs ++ [c]) ↔ (c = .init false ∧ ¬ Live cs) ∨ (c ≠ .shutdown ∧ Broken cs) := by
  constructor
  · rintro ⟨a, b, h, hb, hl⟩
    rcases List.eq_nil_or_concat b with rfl | ⟨b', d, rfl⟩
    · have := List.append_inj' h rfl
      obtain ⟨rfl, h2⟩ := this
      left; exact ⟨by simpa using h2, hl⟩
    · have h' : cs ++ [c] = (a ++ Call.init false :: b') ++ [d] := by simpa using h
      have := List.append_inj' h' rfl
      obtain ⟨h1, h2⟩ := this
      cases h2
      right
      exact ⟨fun e => hb (by simp [e]), a, b', h1, fun m => hb (by simp [m]), hl⟩
  · rintro (⟨rfl, hl⟩ | ⟨hc, a, b, rfl, hb, hl⟩)
    · exact ⟨cs, [], rfl, by simp, hl⟩
    · refine ⟨a, b ++ [c], by simp, ?_, hl⟩
      simp only [List.mem_append, List.mem_singleton, not_or]
      exact ⟨hb, fun e => hc e.symm⟩

theorem not_live_nil : ¬ Live [] := by rintro ⟨a, ok, b, h, -⟩; simp at h
theorem not_broken_nil : ¬ Broken [] := by rintro ⟨a, b, h, -⟩; simp at h

theorem broken_live {cs : List Call} (h : Broken cs) : Live cs := by
  obtain ⟨a, b, h, hb, -⟩ := h; exact ⟨a, false, b, h, hb⟩

/-- The state after any history. -/
theorem run_spec (cs : List Call) :
    ((run cs).ready = true ↔ Live cs) ∧ ((run cs).math = true ↔ Live cs ∧ ¬ Broken cs) := by
  induction cs using List.reverseRecOn with
  | nil => simp [run, not_live_nil]
  | append_singleton cs c ih =>
    rw [run_snoc, live_snoc, broken_snoc]
    obtain ⟨i1, i2⟩ := ih
    cases c with
    | init ok =>
      cases hr : (run cs).ready
      · have hl : ¬ Live cs := by rw [← i1]; simp [hr]
        have hb : ¬ Broken cs := fun h => hl (broken_live h)
        cases ok <;> simp [call, init, initialize', hr, hl, hb]
      · have hl : Live cs := i1.1 hr
        have : ((run cs).math = true ↔ ¬ Broken cs) := by rw [i2]; simp [hl]
        cases ok <;> simp [call, init, initialize', hr, hl, this]
    | shutdown => simp [call, shutdown]
    | pairing => simp [call, i1, i2]

/-- **C69 (initialising twice).** After any history, `InitializeOpenABE` raises an error iff the library was initialised
and not shut down since; then it changes nothing. Otherwise it succeeds. -/
theorem C69_double_init (cs : List Call) (ok : Bool) :
    (Live cs → (run cs).init ok = (.throw .runtimeError, run cs)) ∧
    (¬ Live cs → ((run cs).init ok).1 = .ok () ∧ ((run cs).init ok).2.ready = true) := by
  have h := (run_spec cs).1
  constructor
  · intro hl
    have hr := h.2 hl
    simp [init, initialize', hr]
  · intro hl
    have hr : (run cs).ready = false := by
      cases hr : (run cs).ready
      · rfl
      · exact absurd (h.1 hr) hl
    simp [init, initialize', hr]

/-- **C69 (pairing objects).** After any history, creating a pairing object raises an error iff the library is not
initialised: never initialised, or shut down since. -/
theorem C69_pairing (cs : List Call) : (run cs).newPairing = .throw .runtimeError ↔ ¬ Live cs := by
  have h := (run_spec cs).1
  unfold newPairing assertInit
  cases hr : (run cs).ready
  · simp only [if_true, Bind.bind, Res.bind, true_iff]
    rw [← h]; simp [hr]
  · simp only [Bool.true_eq_false, if_false, Bind.bind, Res.bind]
    have := h.1 hr
    split <;> simp [this]

/-- **C69 (violated: failure of the math library is not reported).** After any history, creating a pairing object is
undefined iff the first initialisation since the last shutdown failed in the math library; that initialisation itself
reported success. -/
theorem C69_failed_math_violated :
    (∀ cs : List Call, (run cs).newPairing = .ub ↔ Broken cs) ∧
    (∀ cs : List Call, ¬ Live cs → ((run cs).init false).1 = .ok () ∧ Broken (cs ++ [.init false])) := by
  constructor
  · intro cs
    obtain ⟨h1, h2⟩ := run_spec cs
    unfold newPairing assertInit
    cases hr : (run cs).ready
    · simp only [if_true, Bind.bind, Res.bind, reduceCtorEq, false_iff]
      intro hb
      have := h1.2 (broken_live hb)
      simp [hr] at this
    · have hl := h1.1 hr
      simp only [Bool.true_eq_false, if_false, Bind.bind, Res.bind]
      cases hm : (run cs).math
      · simp only [Bool.false_eq_true, if_false, true_iff]
        by_contra hb
        have := h2.2 ⟨hl, hb⟩
        simp [hm] at this
      · simp only [if_true, reduceCtorEq, false_iff]
        exact (h2.1 hm).2
  · intro cs hl
    exact ⟨((C69_double_init cs false).2 hl).1, (broken_snoc cs _).2 (.inl ⟨rfl, hl⟩)⟩

example : (run [.init true, .shutdown, .init false, .init true]).newPairing = .ub := rfl

/-- **C69 (partial).** If no initialisation of the math library fails, then after any history creating a pairing object
succeeds iff the library is initialised, and raises an error otherwise. Missing: failing initialisations, see
`C69_failed_math_violated`. -/
theorem C69_partial (cs : List Call) (h : ∀ ok, Call.init ok ∈ cs → ok = true) :
    ((run cs).newPairing = .ok () ↔ Live cs) ∧ ((run cs).newPairing = .throw .runtimeError ↔ ¬ Live cs) := by
  have hb : ¬ Broken cs := by
    rintro ⟨a, b, rfl, -⟩
    have := h false (by simp)
    simp at this
  refine ⟨?_, C69_pairing cs⟩
  have h1 := C69_pairing cs
  have h2 := C69_failed_math_violated.1 cs
  have h3 : (run cs).newPairing = .ok () ∨ (run cs).newPairing = .throw .runtimeError ∨ (run cs).newPairing = .ub := by
    unfold newPairing assertInit
    cases (run cs).ready <;> cases (run cs).math <;> simp [Bind.bind, Res.bind]
  rcases h3 with h3 | h3 | h3 <;> rw [h3] at h1 h2 ⊢ <;> simp_all

example : ∃ cs : List Call, (∀ ok, Call.init ok ∈ cs → ok = true) ∧ Live cs ∧ Call.shutdown ∈ cs :=
  ⟨[.init true, .pairing, .shutdown, .init true, .pairing], by decide, ⟨[.init true, .pairing, .shutdown], true, [.pairing], rfl, by decide⟩,
    by decide⟩
example : ∃ cs : List Call, (∀ ok, Call.init ok ∈ cs → ok = true) ∧ ¬ Live cs ∧ cs ≠ [] :=
  ⟨[.init true, .shutdown], by decide, by rw [show [Call.init true, .shutdown] = [.init true] ++ [.shutdown] from rfl, live_snoc]; simp,
    by decide⟩

/-- **C69 (violated: threads are not shut down).** Shutting a thread down initialises the math library again: the context
of RELIC is left as after an initialisation, whatever the state before, and a direct call of `initializeThread` on a
constructed context does nothing. -/
theorem C69_thread_shutdown_violated (l : Lib) (ok ok' : Bool) :
    (threadShutdown (threadNew l ok).2 (threadNew l ok).1 ok').2.math = ok' ∧
    (threadShutdown (threadNew l ok).2 (threadNew l ok).1 ok').1 = false ∧
    threadInit (threadNew l ok).2 (threadNew l ok).1 ok' = threadNew l ok := ⟨rfl, rfl, rfl⟩

end Lib

/-! ### C70 -/

/-- The bytes that are scheme identifiers: `OpenABE_SCHEME` in utils/common.h. -/
def schemeIds : List UInt8 := [0, 60, 70, 71, 72, 100, 101, 102, 201, 202]

theorem uint8_all {p : UInt8 → Bool} (h : (List.range 256).all (fun n => p (UInt8.ofNat n)) = true) (x : UInt8) :
    p x = true := by
  have := List.all_eq_true.1 h x.toNat (List.mem_range.2 x.toNat_lt)
  rwa [UInt8.ofNat_toNat] at this

/-- **C70 (which bytes are accepted).** A byte is accepted iff it is a scheme identifier; then it is returned. Every other
byte gives the error for invalid schemes; the conversion to a name accepts the same bytes. -/
theorem C70_accepted (x : UInt8) :
    (x ∈ schemeIds → getSchemeID x = .ok x ∧ ∃ s, schemeToString x = .ok s) ∧
    (x ∉ schemeIds → getSchemeID x = .throw .invalidSchemeId ∧ schemeToString x = .throw .invalidSchemeId) := by
  constructor
  · intro h
    refine ⟨if_pos h, ?_⟩
    simp only [schemeIds, List.mem_cons, List.not_mem_nil, or_false] at h
    rcases h with rfl | rfl | rfl | rfl | rfl | rfl | rfl | rfl | rfl | rfl <;> exact ⟨_, rfl⟩
  · intro h
    refine ⟨if_neg h, ?_⟩
    simp only [schemeIds, List.mem_cons, List.not_mem_nil, or_false, not_or] at h
    obtain ⟨h0, h60, h70, h71, h72, h100, h101, h102, h201, h202⟩ := h
    simp [schemeToString, h0, h60, h70, h71, h72, h100, h101, h102, h201, h202]

/-- **C70 (names).** A string that names a scheme gives an identifier with that name; every other string gives 0. -/
theorem C70_names (s : Bytes) :
    (s ∈ [b!"SK-ENC", b!"EC-DSA", b!"PK-ENC", b!"CP-ABE", b!"KP-ABE"] →
      stringToScheme s ≠ 0 ∧ schemeToString (stringToScheme s) = .ok s) ∧
    (s ∉ [b!"SK-ENC", b!"EC-DSA", b!"PK-ENC", b!"CP-ABE", b!"KP-ABE"] → stringToScheme s = 0) := by
  constructor
  · intro h
    simp only [List.mem_cons, List.not_mem_nil, or_false] at h
    rcases h with rfl | rfl | rfl | rfl | rfl <;> decide
  · intro h
    simp only [List.mem_cons, List.not_mem_nil, or_false, not_or] at h
    obtain ⟨h1, h2, h3, h4, h5⟩ := h
    simp only [stringToScheme, h1, h2, h3, h4, h5, if_false]

/-- **C70 (partial).** Converting an identifier to its name and back gives the identifier for 0, 60, 71, 100, 101, 102.
Missing: 70, 72, 201, 202, see `C70_round_trip_violated`. -/
theorem C70_round_trip_partial (x : UInt8) (s : Bytes) (h : schemeToString x = .ok s) :
    stringToScheme s = x ↔ x ∉ ([70, 72, 201, 202] : List UInt8) := by
  have hx : x ∈ schemeIds := by
    by_contra hn
    rw [((C70_accepted x).2 hn).2] at h; cases h
  simp only [schemeIds, List.mem_cons, List.not_mem_nil, or_false] at hx
  rcases hx with rfl | rfl | rfl | rfl | rfl | rfl | rfl | rfl | rfl | rfl <;>
    (cases h; decide)

example : schemeToString 102 = .ok b!"KP-ABE" := rfl

/-- **C70 (violated).** The name of CBC and stream encryption is the name of GCM encryption, and the names of the CCA
schemes are those of the CPA schemes: reading the name back gives another identifier. -/
theorem C70_round_trip_violated (x : UInt8) :
    (∃ s, schemeToString x = .ok s ∧ stringToScheme s ≠ x) ↔ x = 70 ∨ x = 72 ∨ x = 201 ∨ x = 202 := by
  constructor
  · rintro ⟨s, h, hs⟩
    have := Classical.not_not.1 (mt (C70_round_trip_partial x s h).2 hs)
    simpa using this
  · rintro (rfl | rfl | rfl | rfl) <;> exact ⟨_, rfl, by decide⟩

/-- **C70 (key types).** A byte has a key type iff it is a scheme identifier other than 0, and two identifiers with a key
type have the same type iff they have the same name. -/
theorem C70_key_types :
    (∀ x, keyTypeOf x ≠ .none ↔ x ∈ schemeIds ∧ x ≠ 0) ∧
    (∀ x y, keyTypeOf x ≠ .none → keyTypeOf y ≠ .none →
      (keyTypeOf x = keyTypeOf y ↔ schemeToString x = schemeToString y)) := by
  have h1 : ∀ x, keyTypeOf x ≠ .none ↔ x ∈ schemeIds ∧ x ≠ 0 := by
    intro x
    have := uint8_all (p := fun x => decide (keyTypeOf x ≠ .none ↔ x ∈ schemeIds ∧ x ≠ 0)) (by decide +kernel) x
    exact of_decide_eq_true this
  refine ⟨h1, fun x y hx hy => ?_⟩
  have hx := (h1 x).1 hx
  have hy := (h1 y).1 hy
  simp only [schemeIds, List.mem_cons, List.not_mem_nil, or_false] at hx hy
  obtain ⟨hx, hx0⟩ := hx
  obtain ⟨hy, hy0⟩ := hy
  rcases hx with rfl | rfl | rfl | rfl | rfl | rfl | rfl | rfl | rfl | rfl <;>
  rcases hy with rfl | rfl | rfl | rfl | rfl | rfl | rfl | rfl | rfl | rfl <;>
    first | exact absurd rfl hx0 | exact absurd rfl hy0 | decide

example : keyTypeOf 101 ≠ .none ∧ keyTypeOf 201 ≠ .none ∧ keyTypeOf 101 = keyTypeOf 201 := by decide

/-- **C70 (inputs and contexts).** Exactly the keys of the ABE schemes carry a function input, a policy for KP-ABE and
attributes for CP-ABE; bytes that are no identifiers raise an error. Contexts exist only for the two CPA schemes. -/
theorem C70_inputs (x : UInt8) :
    (inputTypeOf x = .ok .attrs ↔ schemeToString x = .ok b!"CP-ABE") ∧
    (inputTypeOf x = .ok .policy ↔ schemeToString x = .ok b!"KP-ABE") ∧
    (inputTypeOf x = .throw .invalidSchemeId ↔ x ∉ schemeIds) ∧
    (createContext x = some x ↔ x = 101 ∨ x = 102) ∧ (createContext x = none ↔ ¬ (x = 101 ∨ x = 102)) := by
  refine ⟨?_, ?_, ?_, ?_, ?_⟩
  · have := uint8_all (p := fun x => decide (inputTypeOf x = .ok .attrs ↔ schemeToString x = .ok b!"CP-ABE"))
      (by decide +kernel) x
    simpa using this
  · have := uint8_all (p := fun x => decide (inputTypeOf x = .ok .policy ↔ schemeToString x = .ok b!"KP-ABE"))
      (by decide +kernel) x
    simpa using this
  · have := uint8_all (p := fun x => decide (inputTypeOf x = .throw .invalidSchemeId ↔ x ∉ schemeIds))
      (by decide +kernel) x
    exact of_decide_eq_true this
  · unfold createContext; split <;> simp_all
  · unfold createContext; split <;> simp_all

/-! ### C87 -/
namespace RNode

theorem deRefs_lt (n : Nat) (ref : UInt32) (h : n ≤ ref.toNat) : deRefs n ref = some false := by
  induction n generalizing ref with
  | zero => rfl
  | succ n ih =>
    have h0 : ¬ ref ≤ 0 := by
      rw [UInt32.le_iff_toNat_le]; simp; omega
    simp only [deRefs, deRef, h0, decide_false, Bool.false_eq_true, if_false]
    apply ih
    have : (ref - 1).toNat = ref.toNat - 1 := by
      rw [UInt32.toNat_sub_of_le]
      · simp
      · rw [UInt32.le_iff_toNat_le]; simp; omega
    omega

/-- **C87 (no use after release).** Deleting a tree never uses a released node, whatever the reference counts; every
subnode survives. -/
theorem C87_defined (ref : UInt32) (kids : List RNode) : deleteKids kids = some 0 ∧ delete (.node ref kids) = some 1 := by
  have h : ∀ ks : List RNode, deleteKids ks = some 0 := by
    intro ks
    induction ks with
    | nil => unfold deleteKids; rfl
    | cons k rest ih =>
      obtain ⟨r, g⟩ := k
      unfold deleteKids
      simp only [deRefs_lt r.toNat r (Nat.le_refl _), ih]
  exact ⟨h kids, by unfold delete; simp [h kids]⟩

theorem size_pos (t : RNode) : 0 < size t := by cases t; unfold size; omega

/-- **C87 (violated).** Deleting a tree releases exactly one node, the root: every tree with a subnode leaks. -/
theorem C87_violated (t : RNode) : delete t = some 1 ∧ (delete t = some (size t) ↔ ∃ ref, t = .node ref []) := by
  obtain ⟨ref, kids⟩ := t
  have h := (C87_defined ref kids).2
  refine ⟨h, ?_⟩
  rw [h]
  cases kids with
  | nil => simp [size, sizeKids]
  | cons k rest =>
    have := size_pos k
    simp only [size, sizeKids, Option.some.injEq, node.injEq, reduceCtorEq, and_false, exists_false, iff_false]
    omega

/-- **C87 (partial).** Deleting the tree of a policy releases all its nodes iff the policy is a single attribute (or a
gate without subnodes). Missing: all other policies. -/
theorem C87_policy_partial (t : TNode) :
    delete (ofTree t) = some (size (ofTree t)) ↔ ∀ fl ty thr subs, t = .gate fl ty thr subs → subs = [] := by
  rw [(C87_violated _).2]
  cases t with
  | leaf => simp [ofTree]
  | gate fl ty thr subs =>
    unfold ofTree
    constructor
    · rintro ⟨r, h⟩ fl' ty' thr' subs' he
      cases he
      have h := h
      simp only [node.injEq, List.map_eq_nil_iff] at h
      exact h.2
    · intro h
      have := h _ _ _ _ rfl
      subst this
      exact ⟨1, by simp⟩

end RNode
end Abe
