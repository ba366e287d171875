/-!
# Base vocabulary of the model

Byte strings, outcomes of C++ calls, and `std::map` keyed by `std::string`.
Nothing here is specific to a function of /repo; the citations say which library
facility is meant.
-/

set_option autoImplicit false
universe u v
namespace Abe

/-- `std::string` and `std::vector<uint8_t>` (include/lsss/zbytestring.h:67). -/
abbrev Bytes := List UInt8

/-- Byte-string literal: `b!"ab"` is the explicit list of the UTF-8 bytes. -/
macro:max "b!" s:str : term => do
  let bs := s.getString.toUTF8.toList
  let elems : Array (Lean.TSyntax `term) :=
    (bs.map (fun b => ⟨(Lean.Syntax.mkNumLit (toString b.toNat)).raw⟩)).toArray
  `(([ $[$elems],* ] : List UInt8))

/-- Error values raised by the code: the `OpenABE_ERROR` enumeration
(include/abe/zerror.h:41-105), plus the C++ standard exceptions that can escape. -/
inductive Err
  | outOfRange   -- std::out_of_range (vector::at)
  | runtimeError -- std::runtime_error
  | invalidContext -- 2
  | invalidCiphertext -- 3
  | invalidGroupParams -- 4
  | invalidParams -- 5
  | invalidKey -- 6
  | outOfMemory -- 7
  | invalidInput -- 8
  | encryptionError -- 9
  | unknownScheme -- 10
  | libraryNotInitialized -- 11
  | noSecretParams -- 12
  | noPublicParams -- 13
  | notImplemented -- 14
  | bufferTooSmall -- 15
  | wrongGroup -- 16
  | invalidParamsId -- 17
  | elementNotFound -- 18
  | secretSharingFailed -- 19
  | invalidPolicy -- 20
  | invalidRng -- 21
  | signatureFailed -- 22
  | wrongUserParam -- 23
  | invalidLength -- 24
  | serializationFailed -- 25
  | invalidLibversion -- 26
  | randInsufficient -- 27
  | unexpectedExtraBytes -- 28
  | inUseAlready -- 29
  | invalidKeyHeader -- 30
  | invalidCiphertextHeader -- 31
  | decryptionFailed -- 32
  | verificationFailed -- 33
  | divideByZero -- 34
  | ctrDrbNotInitialized -- 35
  | elementNotInitialized -- 36
  | deserializationFailed -- 37
  | invalidCurveId -- 38
  | invalidSchemeId -- 39
  | invalidKeyBody -- 40
  | invalidCiphertextBody -- 41
  | syntaxErrorInParser -- 42
  | classNotInitialized -- 43
  | invalidPackType -- 44
  | invalidAttributeStructure -- 45
  | indexOutOfBounds -- 46
  | missingSenderPublicKey -- 47
  | missingReceiverPrivateKey -- 48
  | missingReceiverPublicKey -- 49
  | missingAuthorityIdInAttr -- 50
  | invalidAttributeList -- 51
  | invalidRangeNumbers -- 52
  | invalidMismatchBits -- 53
  | invalidPrefixSpecified -- 54
  | invalidDateSpecified -- 55
  | invalidDateBeforeEpoch -- 56
  | orderNotSpecified -- 57
  | invalidPolicyTree -- 58
  | keygenFailed -- 59
  | noPlaintextSpecified -- 60
  | invalidTagLength -- 61
  | unknown -- 99
  | invalidInputType -- 100
  deriving DecidableEq, Repr

/-- Outcome of a C++ call: normal return, exception, undefined behaviour, or a
failed `assert` (process abort). -/
inductive Res (α : Type u) where
  | ok (a : α)
  | throw (e : Err)
  | ub
  | abort
  deriving DecidableEq, Repr

namespace Res

@[inline] def bind {α : Type u} {β : Type v} (x : Res α) (f : α → Res β) : Res β :=
  match x with
  | ok a => f a
  | throw e => throw e
  | ub => ub
  | abort => abort

instance : Monad Res where
  pure := Res.ok
  bind := Res.bind

@[simp] theorem pure_eq {α : Type u} (a : α) : (pure a : Res α) = ok a := rfl
@[simp] theorem ok_bind {α β : Type u} (a : α) (f : α → Res β) : (ok a >>= f) = f a := rfl
@[simp] theorem throw_bind {α β : Type u} (e : Err) (f : α → Res β) :
    ((throw e : Res α) >>= f) = throw e := rfl
@[simp] theorem ub_bind {α β : Type u} (f : α → Res β) : ((ub : Res α) >>= f) = ub := rfl
@[simp] theorem abort_bind {α β : Type u} (f : α → Res β) : ((abort : Res α) >>= f) = abort := rfl

/-- A call that either returns or raises, but has no undefined behaviour and no abort. -/
def Defined {α : Type u} : Res α → Prop
  | ok _ => True
  | throw _ => True
  | ub => False
  | abort => False

@[simp] theorem defined_ok {α : Type u} (a : α) : (ok a).Defined := trivial
@[simp] theorem defined_throw {α : Type u} (e : Err) : (throw e : Res α).Defined := trivial

theorem defined_bind {α β : Type u} (x : Res α) (f : α → Res β)
    (hx : x.Defined) (hf : ∀ a, x = ok a → (f a).Defined) : (x >>= f).Defined := by
  cases x with
  | ok a => exact hf a rfl
  | throw e => trivial
  | ub => exact hx
  | abort => exact hx

theorem bind_eq_ok {α β : Type u} (x : Res α) (f : α → Res β) (b : β) :
    (x >>= f) = ok b ↔ ∃ a, x = ok a ∧ f a = ok b := by
  cases x with
  | ok a => simp
  | throw e => simp
  | ub => simp
  | abort => simp

def isOk {α : Type u} : Res α → Bool
  | ok _ => true
  | _ => false

end Res

/-! ## Lexicographic order of `std::string` (`char_traits<char>::compare`, unsigned bytes) -/

def blt : Bytes → Bytes → Bool
  | [], [] => false
  | [], _ :: _ => true
  | _ :: _, [] => false
  | a :: as, b :: bs => a < b || (a == b && blt as bs)

theorem blt_irrefl : ∀ a : Bytes, blt a a = false
  | [] => rfl
  | a :: as => by
    have h : ¬ a < a := UInt8.lt_irrefl a
    simp [blt, h, blt_irrefl as]

theorem blt_trans : ∀ {a b c : Bytes}, blt a b = true → blt b c = true → blt a c = true
  | [], [], _, h, _ => by simp [blt] at h
  | [], _ :: _, [], _, h => by simp [blt] at h
  | [], _ :: _, _ :: _, _, _ => rfl
  | _ :: _, [], _, h, _ => by simp [blt] at h
  | _ :: _, _ :: _, [], _, h => by simp [blt] at h
  | a :: as, b :: bs, c :: cs, h1, h2 => by
    simp only [blt, Bool.or_eq_true, Bool.and_eq_true, beq_iff_eq, decide_eq_true_eq] at *
    rcases h1 with h1 | ⟨h1, h1'⟩
    · rcases h2 with h2 | ⟨h2, _⟩
      · exact Or.inl (UInt8.lt_trans h1 h2)
      · exact Or.inl (h2 ▸ h1)
    · rcases h2 with h2 | ⟨h2, h2'⟩
      · exact Or.inl (h1 ▸ h2)
      · exact Or.inr ⟨h1.trans h2, blt_trans h1' h2'⟩

theorem blt_connex : ∀ {a b : Bytes}, blt a b = false → blt b a = false → a = b
  | [], [], _, _ => rfl
  | [], _ :: _, h, _ => by simp [blt] at h
  | _ :: _, [], _, h => by simp [blt] at h
  | a :: as, b :: bs, h1, h2 => by
    simp only [blt, Bool.or_eq_false_iff, Bool.and_eq_false_iff, beq_eq_false_iff_ne,
      decide_eq_false_iff_not] at *
    have hab : a = b := by
      apply UInt8.le_antisymm
      · exact UInt8.not_lt.mp h2.1
      · exact UInt8.not_lt.mp h1.1
    subst hab
    have e1 : blt as bs = false := by simpa using h1.2
    have e2 : blt bs as = false := by simpa using h2.2
    rw [blt_connex e1 e2]

theorem blt_asymm {a b : Bytes} (h : blt a b = true) : blt b a = false := by
  cases h' : blt b a with
  | false => rfl
  | true => have := blt_trans h h'; rw [blt_irrefl] at this; cases this

theorem blt_ne {a b : Bytes} (h : blt a b = true) : a ≠ b := by
  intro e; subst e; rw [blt_irrefl] at h; cases h

/-! ## `std::map<std::string, α>` -/

/-- `std::map<std::string, α>`: association list in increasing key order. -/
abbrev SMap (α : Type u) := List (Bytes × α)

namespace SMap
variable {α : Type u}

/-- `m[k] = v`. -/
def insert (k : Bytes) (v : α) : SMap α → SMap α
  | [] => [(k, v)]
  | (k', v') :: m =>
    if blt k k' then (k, v) :: (k', v') :: m
    else if k = k' then (k, v) :: m
    else (k', v') :: insert k v m

/-- `m.find(k)`. -/
def find (k : Bytes) : SMap α → Option α
  | [] => none
  | (k', v') :: m => if k = k' then some v' else find k m

/-- `m.erase(k)`. -/
def erase (k : Bytes) (m : SMap α) : SMap α := m.filter (fun p => p.1 != k)

/-- Keys in iteration order. -/
def keys (m : SMap α) : List Bytes := m.map (·.1)

/-- Representation invariant of `std::map`: strictly increasing keys. -/
def Sorted : SMap α → Prop
  | [] => True
  | (k, _) :: m => (∀ p ∈ m, blt k p.1 = true) ∧ Sorted m

@[simp] theorem find_nil (k : Bytes) : find k ([] : SMap α) = none := rfl

theorem mem_insert {k : Bytes} {v : α} {m : SMap α} {p : Bytes × α}
    (h : p ∈ insert k v m) : p = (k, v) ∨ (p ∈ m ∧ p.1 ≠ k ∨ p ∈ m) := by
  induction m with
  | nil => simp [insert] at h; exact Or.inl h
  | cons q m ih =>
    obtain ⟨k', v'⟩ := q
    simp only [insert] at h
    split at h
    · rcases List.mem_cons.mp h with h | h
      · exact Or.inl h
      · exact Or.inr (Or.inr h)
    · split at h
      · rcases List.mem_cons.mp h with h | h
        · exact Or.inl h
        · exact Or.inr (Or.inr (List.mem_cons_of_mem _ h))
      · rcases List.mem_cons.mp h with h | h
        · exact Or.inr (Or.inr (h ▸ List.mem_cons_self))
        · rcases ih h with h | h
          · exact Or.inl h
          · exact Or.inr (Or.inr (List.mem_cons_of_mem _ (by rcases h with h | h; exact h.1; exact h)))

theorem mem_insert' {k : Bytes} {v : α} {m : SMap α} {p : Bytes × α}
    (h : p ∈ insert k v m) : p = (k, v) ∨ p ∈ m := by
  rcases mem_insert h with h | h | h
  · exact Or.inl h
  · exact Or.inr h.1
  · exact Or.inr h

theorem sorted_insert {k : Bytes} {v : α} {m : SMap α} (h : Sorted m) : Sorted (insert k v m) := by
  induction m with
  | nil => simp [insert, Sorted]
  | cons q m ih =>
    obtain ⟨k', v'⟩ := q
    simp only [insert]
    split
    · rename_i hlt
      refine ⟨?_, h⟩
      intro p hp
      rcases List.mem_cons.mp hp with hp | hp
      · subst hp; exact hlt
      · exact blt_trans hlt (h.1 p hp)
    · rename_i hlt
      split
      · rename_i he
        subst he
        exact ⟨h.1, h.2⟩
      · rename_i hne
        refine ⟨?_, ih h.2⟩
        intro p hp
        rcases mem_insert' hp with hp | hp
        · subst hp
          cases hb : blt k' k with
          | true => rfl
          | false => exact absurd (blt_connex (by simpa using hlt) hb) hne
        · exact h.1 p hp

theorem find_eq_none_of_lt {k : Bytes} {m : SMap α} (h : ∀ p ∈ m, blt k p.1 = true) :
    find k m = none := by
  induction m with
  | nil => rfl
  | cons q m ih =>
    obtain ⟨k', v'⟩ := q
    have h1 : k ≠ k' := blt_ne (h (k', v') List.mem_cons_self)
    simp only [find, if_neg h1]
    exact ih (fun p hp => h p (List.mem_cons_of_mem _ hp))

theorem find_insert {k k₂ : Bytes} {v : α} {m : SMap α} :
    find k₂ (insert k v m) = if k₂ = k then some v else find k₂ m := by
  induction m with
  | nil => simp [insert, find]
  | cons q m ih =>
    obtain ⟨k', v'⟩ := q
    simp only [insert]
    split
    · simp [find]
    · split
      · rename_i he
        subst he
        simp only [find]
        split <;> rfl
      · rename_i hne
        simp only [find]
        rw [ih]
        by_cases h2 : k₂ = k'
        · subst h2
          have : ¬ k₂ = k := fun e => hne e.symm
          simp [this]
        · simp [h2]

theorem find_erase {k k₂ : Bytes} {m : SMap α} :
    find k₂ (erase k m) = if k₂ = k then none else find k₂ m := by
  induction m with
  | nil => simp [erase, find]
  | cons q m ih =>
    obtain ⟨k', v'⟩ := q
    simp only [erase, List.filter_cons] at *
    by_cases h1 : k' = k
    · subst h1
      simp only [bne_self_eq_false, Bool.false_eq_true, if_false, ih, find]
      by_cases h2 : k₂ = k' <;> simp [h2]
    · have : (k' != k) = true := by simpa using h1
      simp only [this, if_true, find, ih]
      by_cases h2 : k₂ = k'
      · subst h2; simp [h1]
      · simp [h2]

theorem sorted_erase {k : Bytes} {m : SMap α} (h : Sorted m) : Sorted (erase k m) := by
  induction m with
  | nil => exact h
  | cons q m ih =>
    obtain ⟨k', v'⟩ := q
    simp only [erase, List.filter_cons] at *
    split
    · refine ⟨?_, ih h.2⟩
      intro p hp
      exact h.1 p (List.mem_filter.mp hp).1
    · exact ih h.2

theorem mem_of_find {k : Bytes} {v : α} {m : SMap α} (h : find k m = some v) : (k, v) ∈ m := by
  induction m with
  | nil => simp at h
  | cons q m ih =>
    obtain ⟨k', v'⟩ := q
    simp only [find] at h
    split at h
    · rename_i he; subst he; cases h; exact List.mem_cons_self
    · exact List.mem_cons_of_mem _ (ih h)

theorem find_of_mem {k : Bytes} {v : α} {m : SMap α} (hs : Sorted m) (h : (k, v) ∈ m) :
    find k m = some v := by
  induction m with
  | nil => cases h
  | cons q m ih =>
    obtain ⟨k', v'⟩ := q
    simp only [find]
    rcases List.mem_cons.mp h with h | h
    · cases h; simp
    · have := blt_ne (hs.1 _ h)
      rw [if_neg (fun e => this e.symm)]
      exact ih hs.2 h

theorem mem_iff_find {k : Bytes} {v : α} {m : SMap α} (hs : Sorted m) :
    (k, v) ∈ m ↔ find k m = some v := ⟨find_of_mem hs, mem_of_find⟩

/-- Two maps with the same lookups are the same list. -/
theorem ext {m₁ m₂ : SMap α} (h₁ : Sorted m₁) (h₂ : Sorted m₂)
    (h : ∀ k, find k m₁ = find k m₂) : m₁ = m₂ := by
  induction m₁ generalizing m₂ with
  | nil =>
    cases m₂ with
    | nil => rfl
    | cons q m =>
      obtain ⟨k', v'⟩ := q
      have := h k'
      simp [find] at this
  | cons q m ih =>
    obtain ⟨k, v⟩ := q
    cases m₂ with
    | nil => have := h k; simp [find] at this
    | cons q' m' =>
      obtain ⟨k', v'⟩ := q'
      have e1 : (k, v) ∈ (k', v') :: m' := mem_of_find (by rw [← h k]; simp [find])
      have e2 : (k', v') ∈ (k, v) :: m := mem_of_find (by rw [h k']; simp [find])
      have hk : k = k' := by
        rcases List.mem_cons.mp e1 with e1 | e1
        · cases e1; rfl
        · rcases List.mem_cons.mp e2 with e2 | e2
          · cases e2; rfl
          · have a := h₂.1 _ e1
            have b := h₁.1 _ e2
            rw [blt_asymm a] at b; cases b
      subst hk
      have hv : v = v' := by have := h k; simpa [find] using this
      subst hv
      congr 1
      apply ih h₁.2 h₂.2
      intro k₂
      by_cases hk2 : k₂ = k
      · subst hk2
        rw [find_eq_none_of_lt h₁.1, find_eq_none_of_lt h₂.1]
      · have := h k₂
        simpa [find, hk2] using this

theorem sorted_nil : Sorted ([] : SMap α) := trivial

end SMap

end Abe
