import Verif.Model.Keystore
/-!
# Properties of the keystore (C60, C61)
-/
set_option linter.unusedSimpArgs false
set_option autoImplicit false
namespace Abe
namespace KeyStore
variable {K : Type}

/-- One call of the keystore's interface. -/
inductive Op (K : Type)
  | add (name : Bytes) (k : K) (kind : KeyKind)
  | getPub (id : Bytes)
  | getSec (id : Bytes)
  | getAny (id : Bytes)
  | check (id : Bytes)
  | delete (id : Bytes)
  | validate (id : Bytes)

/-- What a call returns. -/
inductive Out (K : Type)
  | key (k : Option K)
  | bool (b : Bool)
  | code (e : Option Err)

/-- The call on the modelled keystore. -/
def step (ks : KeyStore K) : Op K → Out K × KeyStore K
  | .add n k kind => (.code none, addKey ks n k kind)
  | .getPub id => (.key (getPublicKey ks id).1, (getPublicKey ks id).2)
  | .getSec id => (.key (getSecretKey ks id).1, (getSecretKey ks id).2)
  | .getAny id => (.key (getKey ks id).1, (getKey ks id).2)
  | .check id => (.bool (checkSecretKey ks id), ks)
  | .delete id => (.code (deleteKey ks id).1, (deleteKey ks id).2)
  | .validate id => (.bool (validateNewParamsID ks id).1, (validateNewParamsID ks id).2)

/-- A history of calls. -/
def run (ks : KeyStore K) : List (Op K) → List (Out K) × KeyStore K
  | [] => ([], ks)
  | op :: ops =>
    let r := step ks op
    let rest := run r.2 ops
    (r.1 :: rest.1, rest.2)

/-- The specification: two finite maps that only `add` and `delete` change. -/
structure Spec (K : Type) where
  pub : Bytes → Option K := fun _ => none
  sec : Bytes → Option K := fun _ => none

/-- The call on the specification. -/
def Spec.step (s : Spec K) : Op K → Out K × Spec K
  | .add n k .pub => (.code none, { s with pub := fun x => if x = n then some k else s.pub x })
  | .add n k .sec => (.code none, { s with sec := fun x => if x = n then some k else s.sec x })
  | .add _ _ .other => (.code none, s)
  | .getPub id => (.key (s.pub id), s)
  | .getSec id => (.key (s.sec id), s)
  | .getAny id => (.key ((s.pub id).orElse fun _ => s.sec id), s)
  | .check id => (.bool (s.sec id).isSome, s)
  | .delete id => (.code none,
      { pub := fun x => if x = id then none else s.pub x, sec := fun x => if x = id then none else s.sec x })
  | .validate id => (.bool ((s.pub id).isNone && (s.sec id).isNone), s)

/-- A history on the specification. -/
def Spec.run (s : Spec K) : List (Op K) → List (Out K) × Spec K
  | [] => ([], s)
  | op :: ops =>
    let r := s.step op
    let rest := r.2.run ops
    (r.1 :: rest.1, rest.2)

/-- The store represents the specification: null entries count as absent. -/
def Rep (ks : KeyStore K) (s : Spec K) : Prop :=
  (∀ id, (SMap.find id ks.pub).join = s.pub id) ∧ ∀ id, (SMap.find id ks.sec).join = s.sec id

theorem touch_spec (m : SMap (Option K)) (id : Bytes) :
    (touch m id).1 = (SMap.find id m).join ∧
    ∀ x, (SMap.find x (touch m id).2).join = (SMap.find x m).join := by
  unfold touch
  cases h : SMap.find id m with
  | some v => exact ⟨rfl, fun _ => rfl⟩
  | none =>
    refine ⟨rfl, fun x => ?_⟩
    simp only [SMap.find_insert]
    split
    · rename_i e; subst e; rw [h]; rfl
    · rfl

theorem getPublicKey_spec {ks : KeyStore K} {s : Spec K} (h : Rep ks s) (id : Bytes) :
    (getPublicKey ks id).1 = s.pub id ∧ Rep (getPublicKey ks id).2 s := by
  obtain ⟨h1, h2⟩ := touch_spec ks.pub id
  exact ⟨by rw [← h.1 id, ← h1]; rfl, fun x => by rw [← h.1 x, ← h2 x]; rfl, h.2⟩

theorem getSecretKey_spec {ks : KeyStore K} {s : Spec K} (h : Rep ks s) (id : Bytes) :
    (getSecretKey ks id).1 = s.sec id ∧ Rep (getSecretKey ks id).2 s := by
  obtain ⟨h1, h2⟩ := touch_spec ks.sec id
  exact ⟨by rw [← h.2 id, ← h1]; rfl, h.1, fun x => by rw [← h.2 x, ← h2 x]; rfl⟩

theorem getKey_spec {ks : KeyStore K} {s : Spec K} (h : Rep ks s) (id : Bytes) :
    (getKey ks id).1 = ((s.pub id).orElse fun _ => s.sec id) ∧ Rep (getKey ks id).2 s := by
  obtain ⟨h1, h2⟩ := getPublicKey_spec h id
  unfold getKey
  cases e : (getPublicKey ks id).1 with
  | some k => rw [e] at h1; simp only [e, ← h1]; exact ⟨rfl, h2⟩
  | none =>
    rw [e] at h1
    simp only [e, ← h1]
    exact getSecretKey_spec h2 id

theorem deleteKey_spec {ks : KeyStore K} {s : Spec K} (h : Rep ks s) (id : Bytes) :
    (deleteKey ks id).1 = none ∧
    Rep (deleteKey ks id).2
      { pub := fun x => if x = id then none else s.pub x, sec := fun x => if x = id then none else s.sec x } := by
  obtain ⟨h1, h2⟩ := getKey_spec h id
  unfold deleteKey
  cases e : (getKey ks id).1 with
  | none =>
    rw [e] at h1
    have hp : s.pub id = none := by cases hp : s.pub id <;> simp_all
    have hs : s.sec id = none := by rw [hp] at h1; exact h1.symm
    simp only [e]
    refine ⟨trivial, fun x => ?_, fun x => ?_⟩
    · rw [h2.1 x]; simp only; split
      · rename_i e; subst e; exact hp
      · rfl
    · rw [h2.2 x]; simp only; split
      · rename_i e; subst e; exact hs
      · rfl
  | some k =>
    rw [e] at h1
    have hf : ¬ ((!(SMap.find id (getKey ks id).2.pub).isSome && !(SMap.find id (getKey ks id).2.sec).isSome) = true) := by
      intro hc
      have a := h2.1 id
      have b := h2.2 id
      simp only [Bool.and_eq_true, Bool.not_eq_true', Option.isSome_eq_false_iff, Option.isNone_iff_eq_none] at hc
      rw [hc.1] at a; rw [hc.2] at b
      rw [← a, ← b] at h1
      cases h1
    simp only [e, if_neg hf]
    refine ⟨trivial, fun x => ?_, fun x => ?_⟩
    · simp only [SMap.find_erase]; split
      · rfl
      · exact h2.1 x
    · simp only [SMap.find_erase]; split
      · rfl
      · exact h2.2 x

/-- Every call but `checkSecretKey` answers like the specification. -/
theorem step_spec {ks : KeyStore K} {s : Spec K} (h : Rep ks s) (op : Op K) :
    ((∀ id, op ≠ .check id) → (step ks op).1 = (s.step op).1) ∧ Rep (step ks op).2 (s.step op).2 := by
  cases op with
  | add n k kind =>
    cases kind with
    | pub =>
      refine ⟨fun _ => rfl, fun x => ?_, h.2⟩
      simp only [step, addKey, Spec.step, SMap.find_insert]
      split
      · rfl
      · exact h.1 x
    | sec =>
      refine ⟨fun _ => rfl, h.1, fun x => ?_⟩
      simp only [step, addKey, Spec.step, SMap.find_insert]
      split
      · rfl
      · exact h.2 x
    | other => exact ⟨fun _ => rfl, h⟩
  | getPub id => exact ⟨fun _ => congrArg Out.key (getPublicKey_spec h id).1, (getPublicKey_spec h id).2⟩
  | getSec id => exact ⟨fun _ => congrArg Out.key (getSecretKey_spec h id).1, (getSecretKey_spec h id).2⟩
  | getAny id => exact ⟨fun _ => congrArg Out.key (getKey_spec h id).1, (getKey_spec h id).2⟩
  | check id => exact ⟨fun hc => absurd rfl (hc id), h⟩
  | delete id => exact ⟨fun _ => congrArg Out.code (deleteKey_spec h id).1, (deleteKey_spec h id).2⟩
  | validate id =>
    refine ⟨fun _ => ?_, (getKey_spec h id).2⟩
    simp only [step, Spec.step, validateNewParamsID, (getKey_spec h id).1]
    cases s.pub id <;> simp

theorem run_spec (ops : List (Op K)) : ∀ {ks : KeyStore K} {s : Spec K}, Rep ks s →
    (∀ (i : Nat) (op : Op K), ops[i]? = some op → (∀ id, op ≠ .check id) → (run ks ops).1[i]? = (s.run ops).1[i]?) ∧
    Rep (run ks ops).2 (s.run ops).2 := by
  induction ops with
  | nil => intro ks s h; exact ⟨fun i op ho => by simp at ho, h⟩
  | cons op ops ih =>
    intro ks s h
    obtain ⟨h1, h2⟩ := step_spec h op
    obtain ⟨h3, h4⟩ := ih h2
    refine ⟨fun i o ho hc => ?_, h4⟩
    cases i with
    | zero =>
      simp only [List.getElem?_cons_zero, Option.some.injEq] at ho
      subst ho
      simp only [run, Spec.run, List.getElem?_cons_zero, h1 hc]
    | succ i =>
      simp only [List.getElem?_cons_succ] at ho
      simp only [run, Spec.run, List.getElem?_cons_succ]
      exact h3 i o ho hc

/-- For every history of calls, each call other than `checkSecretKey` returns what two maps would return that are
changed only by `addKey` and `deleteKey`: lookups give the most recently added key of that name and kind that was not
deleted since, new parameter ids are valid exactly when no key has that name, and deletion reports no error. -/
theorem C61_keystore_is_a_map (ops : List (Op K)) (i : Nat) (op : Op K) (h : ops[i]? = some op)
    (hc : ∀ id, op ≠ .check id) :
    (run ({} : KeyStore K) ops).1[i]? = ((({} : Spec K)).run ops).1[i]? :=
  (run_spec ops (s := {}) ⟨fun _ => rfl, fun _ => rfl⟩).1 i op h hc

example : (run ({} : KeyStore Nat) [.add b!"a" 1 .pub, .getSec b!"a", .add b!"a" 2 .sec, .getAny b!"a",
    .delete b!"a", .getAny b!"a"]).1 =
    [.code none, .key none, .code none, .key (some 1), .code none, .key none] := by
  simp [run, step, addKey, getSecretKey, getKey, getPublicKey, touch, deleteKey, SMap.find, SMap.insert, SMap.erase, blt]

/-- The calls after which the store may hold a null secret entry under `id`. -/
def looksUp (id : Bytes) : Op K → Bool
  | .getSec x | .getAny x | .delete x | .validate x => x == id
  | _ => false

/-- `checkSecretKey` is right for a name that was only added and checked so far (and deleted only when it was
there, which `looksUp` excludes as well). -/
theorem C60_check_without_lookups_partial (ops : List (Op K)) (id : Bytes)
    (h : ∀ op ∈ ops, looksUp id op = false) :
    checkSecretKey (run ({} : KeyStore K) ops).2 id = true ↔
      (((({} : Spec K)).run ops).2.sec id).isSome = true := by
  have key : ∀ (ops : List (Op K)) (ks : KeyStore K), (∀ op ∈ ops, looksUp id op = false) →
      (SMap.find id ks.sec ≠ some none) → SMap.find id (run ks ops).2.sec ≠ some none := by
    intro ops
    induction ops with
    | nil => intro ks _ h; exact h
    | cons op ops ih =>
      intro ks hl hn
      refine ih (step ks op).2 (fun o ho => hl o (List.mem_cons_of_mem _ ho)) ?_
      have ho := hl op List.mem_cons_self
      have ht : ∀ x, x ≠ id → SMap.find id (touch ks.sec x).2 = SMap.find id ks.sec := by
        intro x hx
        unfold touch
        cases SMap.find x ks.sec with
        | some v => rfl
        | none => simp [SMap.find_insert, Ne.symm hx]
      have hgk : ∀ x, x ≠ id → SMap.find id (getKey ks x).2.sec = SMap.find id ks.sec := by
        intro x hx
        unfold getKey
        cases e : (getPublicKey ks x).1 with
        | some k => simp only [e]; rfl
        | none => simp only [e]; exact ht x hx
      cases op with
      | add n k kind =>
        cases kind with
        | pub => exact hn
        | sec =>
          simp only [step, addKey, SMap.find_insert]
          split
          · simp
          · exact hn
        | other => exact hn
      | getPub x => exact hn
      | getSec x =>
        have hx : x ≠ id := by simpa [looksUp] using ho
        simp only [step, getSecretKey, ht x hx]; exact hn
      | getAny x =>
        have hx : x ≠ id := by simpa [looksUp] using ho
        simp only [step, hgk x hx]; exact hn
      | check x => exact hn
      | delete x =>
        have hx : x ≠ id := by simpa [looksUp] using ho
        have e : SMap.find id (deleteKey ks x).2.sec = SMap.find id ks.sec := by
          unfold deleteKey
          have e2 := hgk x hx
          cases e3 : (getKey ks x).1 with
          | none => simp only [e3]; exact e2
          | some k =>
            simp only [e3]
            split <;> simp [SMap.find_erase, Ne.symm hx, e2]
        simp only [step, e]; exact hn
      | validate x =>
        have hx : x ≠ id := by simpa [looksUp] using ho
        simp only [step, validateNewParamsID, hgk x hx]; exact hn
  have hn := key ops {} h (by simp)
  have hr := (run_spec ops (ks := ({} : KeyStore K)) (s := {}) ⟨fun _ => rfl, fun _ => rfl⟩).2.2 id
  rw [← hr]
  unfold checkSecretKey
  cases e : SMap.find id (run ({} : KeyStore K) ops).2.sec with
  | none => simp
  | some v =>
    cases v with
    | none => exact absurd e hn
    | some k => simp

example : ∀ op ∈ ([.add b!"a" 1 .sec, .getSec b!"b", .check b!"a"] : List (Op Nat)), looksUp b!"a" op = false := by
  decide

/-- The code violates C60: in every state, looking up a missing secret key makes `checkSecretKey` answer yes,
although the next lookup still finds nothing. -/
theorem C60_lookup_creates_violated (ks : KeyStore K) (id : Bytes) (h : checkSecretKey ks id = false) :
    (getSecretKey ks id).1 = none ∧ checkSecretKey (getSecretKey ks id).2 id = true ∧
    (getSecretKey (getSecretKey ks id).2 id).1 = none := by
  have hf : SMap.find id ks.sec = none := by
    simpa [checkSecretKey] using h
  have e : getSecretKey ks id = (none, { ks with sec := SMap.insert id none ks.sec }) := by
    simp [getSecretKey, touch, hf]
  rw [e]
  refine ⟨rfl, ?_, ?_⟩
  · simp [checkSecretKey, SMap.find_insert]
  · simp [getSecretKey, touch, SMap.find_insert]

example : checkSecretKey ({} : KeyStore Nat) b!"a" = false := rfl

/-- Checking whether a new id is free also makes `checkSecretKey` answer yes. -/
theorem C60_validate_creates_violated (ks : KeyStore K) (id : Bytes) (h : (getKey ks id).1 = none) :
    (validateNewParamsID ks id).1 = true ∧ checkSecretKey (validateNewParamsID ks id).2 id = true := by
  refine ⟨by simp [validateNewParamsID, h], ?_⟩
  simp only [validateNewParamsID]
  unfold getKey at h ⊢
  cases e : (getPublicKey ks id).1 with
  | some k => simp only [e] at h; cases h
  | none =>
    simp only [e] at h ⊢
    unfold getSecretKey touch checkSecretKey
    cases e2 : SMap.find id (getPublicKey ks id).2.sec with
    | some v => simp [e2]
    | none => simp [SMap.find_insert]

example : (getKey ({} : KeyStore Nat) b!"a").1 = none := rfl

end KeyStore
end Abe
