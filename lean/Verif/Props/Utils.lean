import Verif.Model.Utils
import Verif.Props.Keystore
import Verif.Props.Search
/-!
# Contexts, codes, copies, deletion and passphrases (C103 to C108)
-/
set_option linter.unusedSimpArgs false
set_option linter.unusedSectionVars false
set_option autoImplicit false
namespace Abe
open Scheme Cpa

/-! ## C103 contexts -/
section c103
variable {G1 G2 GT : Type}

/-- `createContextABE` and `createContextABESchemeCPA` give a context exactly for the ids of the two schemes, of that
scheme, with that id, and without keys or parameters. -/
theorem C103_created_iff (id : UInt8) (sch : Scheme) (c : Ctx G1 G2 GT) :
    (createContextABE id = some (sch, c) ↔ id = schemeType sch ∧ c = ⟨id, false, {}⟩) ∧
    (createContextCPA id = .ok (some (sch, c)) ↔ id = schemeType sch ∧ c = ⟨id, false, {}⟩) := by
  have h1 : (102 : UInt8) ≠ 101 := by decide
  have key : createContextABE id = some (sch, c) ↔ id = schemeType sch ∧ c = ⟨id, false, {}⟩ := by
    unfold createContextABE
    by_cases ha : id = 101
    · subst ha
      rw [if_pos rfl]
      cases sch
      · simp [newCtx, schemeType, eq_comm]
      · simp [schemeType, newCtx]
    · rw [if_neg ha]
      by_cases hb : id = 102
      · subst hb
        rw [if_pos rfl]
        cases sch
        · simp [newCtx, schemeType]
        · simp [newCtx, schemeType, eq_comm]
      · rw [if_neg hb]
        cases sch <;> simp [schemeType, ha, hb]
  refine ⟨key, ?_⟩
  rw [← key]
  unfold createContextCPA createContextABE
  by_cases ha : id = 101
  · subst ha; simp [construct, newCtx, schemeType]
  · by_cases hb : id = 102
    · subst hb; simp [h1, construct, newCtx, schemeType]
    · simp [ha, hb]

/-- No id makes `createContextABESchemeCPA` raise: for every other id the result is a null pointer. -/
theorem C103_other_ids (id : UInt8) (h1 : id ≠ 101) (h2 : id ≠ 102) :
    createContextABE id = (none : Option (Scheme × Ctx G1 G2 GT)) ∧
    createContextCPA id = (.ok none : Res (Option (Scheme × Ctx G1 G2 GT))) := by
  unfold createContextCPA createContextABE
  simp [h1, h2]

example : createContextCPA 101 = (.ok (some (.cp, ⟨101, false, {}⟩)) : Res (Option (Scheme × Ctx Nat Nat Nat))) :=
  ((C103_created_iff 101 .cp _).2).mpr ⟨rfl, rfl⟩

example : (200 : UInt8) ≠ 101 ∧ (200 : UInt8) ≠ 102 := by decide

end c103

/-! ## C104 texts of the codes -/

/-- The codes without a text. -/
def Untold (n : Nat) : Prop := n ∉ errorTexts.map Prod.fst

theorem lookup_mem {n : Nat} {t : Bytes} : ∀ {l : List (Nat × Bytes)}, l.lookup n = some t → (n, t) ∈ l
  | [], h => by cases h
  | (m, u) :: l, h => by
    rw [List.lookup_cons] at h
    by_cases e : n = m
    · subst e; simp only [beq_self_eq_true] at h; cases h; exact List.mem_cons_self ..
    · have : (n == m) = false := by simpa using e
      rw [this] at h
      exact List.mem_cons_of_mem _ (lookup_mem h)

theorem lookup_none {n : Nat} : ∀ {l : List (Nat × Bytes)}, l.lookup n = none ↔ n ∉ l.map Prod.fst
  | [] => by simp
  | (m, u) :: l => by
    rw [List.lookup_cons]
    by_cases e : n = m
    · subst e; simp
    · have : (n == m) = false := by simpa using e
      rw [this]
      simp only [lookup_none (l := l), List.map_cons, List.mem_cons, e, false_or]

theorem texts_distinct : ∀ a ∈ errorTexts, ∀ b ∈ errorTexts, a.2 = b.2 → a.1 = b.1 := by decide +kernel

theorem texts_known : ∀ a ∈ errorTexts, a.2 ≠ b!"Unrecognized error code" := by decide +kernel

/-- Two codes with the same text are equal, or the library has no text for either of them. -/
theorem C104_distinct (m n : Nat) (h : errorToString m = errorToString n) : m = n ∨ (Untold m ∧ Untold n) := by
  unfold errorToString at h
  cases hm : errorTexts.lookup m with
  | none =>
    cases hn : errorTexts.lookup n with
    | none => exact .inr ⟨lookup_none.mp hm, lookup_none.mp hn⟩
    | some t =>
      rw [hm, hn] at h
      exact absurd h.symm (texts_known _ (lookup_mem hn))
  | some s =>
    cases hn : errorTexts.lookup n with
    | none =>
      rw [hm, hn] at h
      exact absurd h (texts_known _ (lookup_mem hm))
    | some t =>
      rw [hm, hn] at h
      exact .inl (texts_distinct _ (lookup_mem hm) _ (lookup_mem hn) h)

/-- No two errors share a number. -/
theorem C104_codes_distinct (a b : Err) (n : Nat) (ha : a.code = some n) (hb : b.code = some n) : a = b := by
  have : a.code = b.code := ha.trans hb.symm
  cases a <;> first
    | (cases ha; done)
    | (cases b <;> first | rfl | (cases ha; cases hb))

/-- Every error with a number has a text of its own, different from those of all other errors and of "no error". What is
missing: three of them. -/
theorem C104_texts_partial (a : Err) (n : Nat) (ha : a.code = some n)
    (h1 : a ≠ .invalidRng) (h2 : a ≠ .invalidPolicyTree) (h3 : a ≠ .invalidInputType) :
    errorToString n ≠ b!"Unrecognized error code" ∧ errorToString n ≠ errorToString 0 ∧
    ∀ b m, b ≠ a → Err.code b = some m → errorToString m ≠ errorToString n := by
  have hk : ¬ Untold n := by
    unfold Untold
    cases a <;> first
      | (cases ha; done)
      | exact absurd rfl h1
      | exact absurd rfl h2
      | exact absurd rfl h3
      | (cases ha; decide)
  refine ⟨?_, ?_, ?_⟩
  · intro h
    unfold errorToString at h
    cases hn : errorTexts.lookup n with
    | none => exact hk (lookup_none.mp hn)
    | some t => rw [hn] at h; exact texts_known _ (lookup_mem hn) h
  · intro h
    rcases C104_distinct n 0 h with e | ⟨e, -⟩
    · subst e; cases a <;> cases ha
    · exact hk e
  · intro b m hb hm h
    rcases C104_distinct m n h with e | ⟨-, e⟩
    · subst e; exact hb (C104_codes_distinct b a _ hm ha)
    · exact hk e

example : Err.code .invalidPolicy = some 20 := rfl

/-- The errors for a missing random number generator, a bad policy tree and a bad input type have no text: all three, like
any number that is not a code, are reported as unrecognized. -/
theorem C104_violated (n : Nat) :
    (Err.code .invalidRng = some n ∨ Err.code .invalidPolicyTree = some n ∨ Err.code .invalidInputType = some n) →
    errorToString n = b!"Unrecognized error code" ∧ errorToString n = errorToString 1000 := by
  rintro (h | h | h) <;> (cases h; decide +kernel)

/-! ## C105 copies of function inputs -/

/-- A copy of an attribute list is the list. What is missing: policies. -/
theorem C105_lists_partial (l : AttrList) : FInput.copy (.attrs l) = .attrs l := rfl

/-- `copyFunctionInput` of a policy is a null pointer: neither of its keys, searches nor ciphertexts can use the copy. -/
theorem C105_violated (p : Policy) (k : FInput) :
    FInput.copy (.policy p) ≠ .policy p ∧ ¬ k.opens (FInput.copy (.policy p)) ∧ ¬ (FInput.copy (.policy p)).opens k := by
  refine ⟨by simp [FInput.copy], ?_, ?_⟩ <;> cases k <;> simp [FInput.copy, FInput.opens]

/-! ## C106 deleting keys -/
section c106
variable {K : Type}

theorem delete_lookups (ks : KeyStore K) (id : Bytes) : (ks.deleteKey id).1 = none ∧
    ∀ j, ((ks.deleteKey id).2.getPublicKey j).1 = (if j = id then none else (ks.getPublicKey j).1) ∧
      ((ks.deleteKey id).2.getSecretKey j).1 = (if j = id then none else (ks.getSecretKey j).1) := by
  have hr : KeyStore.Rep ks ⟨fun x => (SMap.find x ks.pub).join, fun x => (SMap.find x ks.sec).join⟩ :=
    ⟨fun _ => rfl, fun _ => rfl⟩
  obtain ⟨h1, h2⟩ := KeyStore.deleteKey_spec hr id
  refine ⟨h1, fun j => ?_⟩
  rw [(KeyStore.getPublicKey_spec h2 j).1, (KeyStore.getSecretKey_spec h2 j).1, (KeyStore.getPublicKey_spec hr j).1,
    (KeyStore.getSecretKey_spec hr j).1]
  exact ⟨rfl, rfl⟩

end c106

section c106b
variable {q : Nat} [Fact q.Prime] {G1 G2 GT : Type} [AddCommGroup G1] [AddCommGroup G2] [AddCommGroup GT]
  [Module (ZMod q) G1] [Module (ZMod q) G2] [Module (ZMod q) GT]

/-- After `deleteKey` the id names no key, every other id names what it named, and decryption, encryption, key generation
and export under the id answer as for a key that never existed. The code is always "no error", also when there was no key.
What is missing: the components of the key object are not overwritten. -/
theorem C106_delete_partial (env : Env G1 G2 GT) (cd : Codec G1 G2 GT) (sch : Scheme) (c c' : Ctx G1 G2 GT) (id : Bytes)
    (code : Option Err) (h : Cpa.deleteKey c id = (code, c')) :
    code = none ∧ c'.ready = c.ready ∧ c'.alg = c.alg ∧ Unused c' id ∧
    (∀ j, j ≠ id → held c' j .pub = held c j .pub ∧ held c' j .sec = held c j .sec) ∧
    (∀ ct, ∃ d, decrypt q env sch c' id ct = .ok (some .invalidInput, [], d)) ∧
    (∀ input pt (r : Rand q) ct, EncInput sch input → ∃ d, encrypt env sch c' id input pt r ct = .ok (.error .invalidParams, d)) ∧
    (∀ input keyID other (r : Rand q), KeyInput sch input →
      (∃ d, generateKey env sch c' input keyID id other r = .ok (some .invalidParams, d)) ∧
      ∃ d, generateKey env sch c' input keyID other id r = .ok (some .invalidParams, d)) ∧
    ∃ d, exportKey cd c' id = .ok (.error .invalidInput, d) := by
  obtain ⟨h1, h2⟩ := delete_lookups c.ks id
  cases h
  have hp : (((c.ks.deleteKey id).2).getPublicKey id).1 = none := by rw [(h2 id).1, if_pos rfl]
  have hs : (((c.ks.deleteKey id).2).getSecretKey id).1 = none := by rw [(h2 id).2, if_pos rfl]
  refine ⟨h1, rfl, rfl, ⟨hp, hs⟩, ?_, ?_, ?_, ?_, ?_⟩
  · intro j hj
    have := h2 j
    rw [if_neg hj, if_neg hj] at this
    exact this
  · intro ct
    obtain ⟨d, -, -, hd⟩ := C89_decrypt (q := q) env sch { c with ks := (c.ks.deleteKey id).2 } id 0 ct hs
    exact ⟨d, hd⟩
  · intro input pt r ct hi
    obtain ⟨d, -, -, hd⟩ := (C89_encrypt env sch { c with ks := (c.ks.deleteKey id).2 } id input 0 pt r ct).2 hi hp
    exact ⟨d, hd⟩
  · intro input keyID other r hi
    obtain ⟨d, hd, -⟩ := C89_generateKey_missing env sch { c with ks := (c.ks.deleteKey id).2 } input keyID id other r hi (.inl hp)
    obtain ⟨e, he, -⟩ := C89_generateKey_missing env sch { c with ks := (c.ks.deleteKey id).2 } input keyID other id r hi (.inr hs)
    exact ⟨⟨d, hd⟩, e, he⟩
  · exact (C89_exportKey cd { c with ks := (c.ks.deleteKey id).2 } id).1 ⟨hp, hs⟩

/-- Erasing is not implemented: `zeroize` of a key or ciphertext reports so and leaves every component readable, so that the
object of a deleted key still holds its secrets. -/
theorem C106_zeroize_violated (comps : Container G1 G2 GT) :
    (Container.zeroize comps).1 = some .notImplemented ∧
    ∀ n, SMap.find n (Container.zeroize comps).2 = SMap.find n comps := ⟨rfl, fun _ => rfl⟩

end c106b

/-! ## C107 passphrases and active users -/
section c107
variable {G1 G2 GT : Type}

variable (env : KmEnv G1 G2 GT)

/-- The calls of the key manager that change it. -/
inductive UserOp
  | login (program user pass : Bytes)
  | store (user id blob : Bytes) (expires : Nat) (cache : Bool) (rnd : Bytes)
  | storePrefix (user pre blob : Bytes) (expires : Nat) (cache : Bool) (rnd : Bytes)
  | delete (q : Query)

def UserOp.run (km : KeyMgr G1 G2 GT) : UserOp → KeyMgr G1 G2 GT
  | .login p u w => km.setPassphrase p u w
  | .store u id b x c r => (KeyMgr.store env km u id b x c r).2
  | .storePrefix u pre b x c r => (KeyMgr.storePrefix env km u pre b x c r).2
  | .delete q => (km.delete q).2

/-- The specification: the active users with their programs, as a function. -/
def UserOp.spec (a : Bytes → Option Bytes) : UserOp → Bytes → Option Bytes
  | .login p u _, v => if v = u then some p else a v
  | .delete q, v => if v = q.userId ∧ q.now = 0 ∧ q.userId ≠ [] then none else a v
  | _, v => a v

theorem store_users (km : KeyMgr G1 G2 GT) (u id b : Bytes) (x : Nat) (c : Bool) (r : Bytes) :
    (KeyMgr.store env km u id b x c r).2.active = km.active ∧ (KeyMgr.store env km u id b x c r).2.pass = km.pass := by
  unfold KeyMgr.store
  split
  · exact ⟨rfl, rfl⟩
  · simp only
    split <;> try exact ⟨rfl, rfl⟩
    split <;> exact ⟨rfl, rfl⟩

theorem storePrefix_users (km : KeyMgr G1 G2 GT) (u pre b : Bytes) (x : Nat) (c : Bool) (r : Bytes) :
    (KeyMgr.storePrefix env km u pre b x c r).2.active = km.active ∧
    (KeyMgr.storePrefix env km u pre b x c r).2.pass = km.pass := by
  have key : ∀ km0 : KeyMgr G1 G2 GT, km0.active = km.active → km0.pass = km.pass → ∀ id,
      (KeyMgr.store env km0 u id b x c r).2.active = km.active ∧ (KeyMgr.store env km0 u id b x c r).2.pass = km.pass :=
    fun km0 h1 h2 id => ⟨(store_users env km0 u id b x c r).1.trans h1, (store_users env km0 u id b x c r).2.trans h2⟩
  unfold KeyMgr.storePrefix
  simp only
  split <;> (apply key <;> split <;> rfl)

/-- The active users after any sequence of calls are those registered and not since removed by a deletion for that user
without a date. -/
theorem C107_active (ops : List UserOp) (u : Bytes) :
    SMap.find u (ops.foldl (UserOp.run env) ({} : KeyMgr G1 G2 GT)).active = ops.foldl UserOp.spec (fun _ => none) u := by
  suffices H : ∀ (ops : List UserOp) (km : KeyMgr G1 G2 GT) (a : Bytes → Option Bytes), (∀ u, SMap.find u km.active = a u) →
      ∀ u, SMap.find u (ops.foldl (UserOp.run env) km).active = ops.foldl UserOp.spec a u from H ops {} _ (fun _ => rfl) u
  intro ops
  induction ops with
  | nil => intro km a h u; exact h u
  | cons op ops ih =>
    intro km a h u
    refine ih _ _ (fun v => ?_) u
    cases op with
    | login p w x => simp only [UserOp.run, KeyMgr.setPassphrase, SMap.find_insert, UserOp.spec, h]
    | store w id b x c r => simp only [UserOp.run, (store_users env km w id b x c r).1, UserOp.spec, h]
    | storePrefix w id b x c r => simp only [UserOp.run, (storePrefix_users env km w id b x c r).1, UserOp.spec, h]
    | delete q =>
      simp only [UserOp.run, KeyMgr.delete, UserOp.spec]
      by_cases h1 : q.now = 0
      · by_cases h2 : q.userId = []
        · simp [h1, h2, h]
        · simp [h1, h2, h, SMap.find_erase]
      · have h3 : 0 < q.now := by omega
        simp [h1, h3, h]

example : (([.login b!"app" b!"ann" b!"pw", .login b!"app" b!"bob" b!"x", .delete { userId := b!"ann", now := 0, efficient := false }] :
    List UserOp).foldl UserOp.spec (fun _ => none)) b!"ann" = none ∧
    (([.login b!"app" b!"ann" b!"pw", .login b!"app" b!"bob" b!"x", .delete { userId := b!"ann", now := 0, efficient := false }] :
    List UserOp).foldl UserOp.spec (fun _ => none)) b!"bob" = some b!"app" := by decide

/-- A passphrase protects nothing: whatever is registered for whatever user, reading, searching, storing and deleting
keys give the same answers as before. -/
theorem C107_no_protection_violated (km : KeyMgr G1 G2 GT) (program user pass : Bytes) :
    (∀ u id, (km.setPassphrase program user pass).getKey u id = km.getKey u id) ∧
    (∀ q f, (KeyMgr.search env (km.setPassphrase program user pass) q f >>= fun r => .ok r.1) =
      (KeyMgr.search env km q f >>= fun r => Res.ok r.1)) ∧
    (∀ u id b x c r, (KeyMgr.store env (km.setPassphrase program user pass) u id b x c r).1 = (KeyMgr.store env km u id b x c r).1) ∧
    ∀ q, ((km.setPassphrase program user pass).delete q).1 = (km.delete q).1 := by
  refine ⟨fun u id => rfl, fun q f => KeyMgr.search_keys q f rfl, fun u id b x c r => ?_, fun q => ?_⟩
  · unfold KeyMgr.store
    split
    · rfl
    · simp only
      split <;> try rfl
      rename_i h1
      split <;> rename_i h2 <;> simp only [KeyMgr.setPassphrase] at h2 <;> rw [h2]
  · unfold KeyMgr.delete
    simp only
    split <;> rfl

/-- Removing a user keeps the passphrase. -/
theorem C107_pass_kept_violated (km : KeyMgr G1 G2 GT) (program user pass : Bytes) (q : Query) :
    SMap.find user ((km.setPassphrase program user pass).delete q).2.pass = some pass := by
  unfold KeyMgr.delete
  simp only
  split
  · simp [KeyMgr.setPassphrase, SMap.find_insert]
  · split <;> simp [KeyMgr.setPassphrase, SMap.find_insert]

end c107

/-! ## C108 the hash key and the presence of keys -/
section c108
variable {q : Nat} [Fact q.Prime] {G1 G2 GT : Type} [AddCommGroup G1] [AddCommGroup G2] [AddCommGroup GT]
  [Module (ZMod q) G1] [Module (ZMod q) G2] [Module (ZMod q) GT]

theorem params_k {env : Env G1 G2 GT} {sch : Scheme} {r : ParamRand q G1 G2} {P M : Container G1 G2 GT}
    (h : (sch = .cp ∧ cpParams env r = .ok (P, M)) ∨ (sch = .kp ∧ kpParams env r = .ok (P, M))) :
    SMap.find b!"k" P = some (.bytes r.k) := by
  rcases h with ⟨-, h⟩ | ⟨-, h⟩ <;> (cases h; rfl)

/-- After `generateParams`, `getHashKey` returns the hash key drawn for these parameters, in both schemes. -/
theorem C108_hash_key (env : Env G1 G2 GT) (sch : Scheme) (c c1 : Ctx G1 G2 GT) (mpkID mskID : Bytes) (r : ParamRand q G1 G2)
    (h : generateParams env sch c mpkID mskID r = .ok (none, c1)) :
    ∃ c2, getHashKey c1 mpkID = .ok (some r.k, c2) ∧ SameKeys c1 c2 := by
  obtain ⟨ks, P, M, hp, rfl⟩ := generateParams_shape h
  have hk := params_k hp
  refine ⟨⟨c.alg, true, (((ks.addKey mpkID (newKey c.alg mpkID r.uid1 P) .pub).addKey mskID (newKey c.alg mskID r.uid2 M)
    .sec).getPublicKey mpkID).2⟩, ?_, fun j => ⟨pub_after_pub _ mpkID j, sec_after_pub _ mpkID j⟩⟩
  unfold getHashKey
  simp only [pub_addSec, pub_addPub, newKey, getBytes_of hk, Res.ok_bind]

/-- Also in another context, after the public key was exported and loaded there. What is missing: values whose bytes do not
fit the length fields. -/
theorem C108_hash_key_loaded_partial (env : Env G1 G2 GT) {cd : Codec G1 G2 GT} (hc : CodecOk cd) (ho : cd.order = q)
    (sch : Scheme) (c c1 : Ctx G1 G2 GT) (ha : c.alg = schemeType sch) (mpkID mskID : Bytes) (r : ParamRand q G1 G2)
    (h : generateParams env sch c mpkID mskID r = .ok (none, c1)) (hid : mpkID.length < 2 ^ 31) (hk : r.k.length < 2 ^ 31)
    (hu : r.uid1.length = 16) (mpk : Key G1 G2 GT) (hm : held c1 mpkID .pub = some mpk) (hf : Cpa.Fits cd mpk.comps) :
    ∃ blob c2, exportKey cd c1 mpkID = .ok (.ok blob, c2) ∧ ∀ (d : Ctx G1 G2 GT) (id rnd : Bytes), d.alg = c.alg →
      ∃ d' d'', loadMasterPublicParams env.mktime cd d id blob rnd = .ok (none, d') ∧
        getHashKey d' id = .ok (some r.k, d'') := by
  obtain ⟨ks, P, M, hp, rfl⟩ := generateParams_shape h
  have hP := params_k hp
  have hm' : mpk = newKey c.alg mpkID r.uid1 P := by
    simp only [held, pub_addSec, pub_addPub, Option.some.injEq] at hm
    exact hm.symm
  subst hm'
  have hg : Writable env.mktime cd P ∧ P ≠ [] := by
    rcases hp with ⟨-, hp⟩ | ⟨-, hp⟩
    · exact (cpParams_good hp hk ho).1
    · exact (kpParams_good hp hk ho).1
  have hal : KnownAlg c.alg := by rw [ha]; cases sch <;> (unfold KnownAlg; decide)
  obtain ⟨blob, c2, h1, -, -, h2⟩ := key_transport (key := newKey c.alg mpkID r.uid1 P) hc (getKey_pub hm) hu rfl hid hal hg hf
  refine ⟨blob, c2, h1, fun d id rnd hd => ?_⟩
  obtain ⟨d', g1, -, -, g2⟩ := h2 d id rnd .pub hd
  obtain ⟨key', g3, g4⟩ := g2 (by decide)
  refine ⟨d', { d' with ks := (d'.ks.getPublicKey id).2 }, g1, ?_⟩
  unfold getHashKey
  have g3' : (d'.ks.getPublicKey id).1 = some key' := g3
  have g5 : getBytes key'.comps b!"k" = .ok (some r.k) := by
    rw [← Alike.bytes g4]; exact getBytes_of hP
  simp only [g3', g5, Res.ok_bind]

/-- Parameters made, their public key short enough to be exported, and no key under another id. -/
example : ∃ c1 mpk, generateParams WireEx.env .cp WireEx.ctx b!"mpk" b!"msk" WireEx.pr = .ok (none, c1) ∧
    WireEx.ctx.alg = schemeType .cp ∧ held c1 b!"mpk" .pub = some mpk ∧ Cpa.Fits WireEx.codec mpk.comps ∧
    held c1 b!"dk" .sec = none ∧ Unused c1 b!"dk" ∧ ¬ Unused c1 b!"msk" ∧
    WireEx.pr.k.length < 2 ^ 31 ∧ WireEx.pr.uid1.length = 16 ∧ WireEx.codec.order = 5 := by
  have h : (match generateParams WireEx.env .cp WireEx.ctx b!"mpk" b!"msk" WireEx.pr with
    | .ok (none, c1) => (match held c1 b!"mpk" .pub with
      | some mpk => WireEx.fits mpk.comps && (c1.ks.getPublicKey b!"dk").1.isNone && (c1.ks.getSecretKey b!"dk").1.isNone &&
          (c1.ks.getSecretKey b!"msk").1.isSome
      | none => false)
    | _ => false) = true := by decide +kernel
  split at h
  · rename_i c1 h1
    split at h
    · rename_i mpk h2
      simp only [Bool.and_eq_true, Option.isNone_iff_eq_none, Option.isSome_iff_ne_none] at h
      refine ⟨c1, mpk, h1, rfl, h2, WireEx.fits_spec h.1.1.1, h.1.2, ⟨h.1.1.2, h.1.2⟩, fun hu => h.2 hu.2, by decide, rfl, rfl⟩
    · cases h
  · cases h

/-- Without the public key `getHashKey` raises `invalidParams`; what it returns is a component of the public key, or null. -/
theorem C108_hash_key_missing (c : Ctx G1 G2 GT) (mpkID : Bytes) :
    (held c mpkID .pub = none → getHashKey c mpkID = .throw .invalidParams) ∧
    ∀ k c', getHashKey c mpkID = .ok (k, c') → SameKeys c c' ∧ ∃ mpk o, held c mpkID .pub = some mpk ∧
      SMap.find b!"k" mpk.comps = some o ∧ ∀ b, k = some b ↔ o = .bytes b := by
  unfold getHashKey held
  simp only
  constructor
  · intro h; rw [h]
  · intro k c' h
    split at h
    · cases h
    · rename_i mpk hm
      obtain ⟨k', hk, h⟩ := (Res.bind_eq_ok _ _ _).mp h
      cases h
      unfold getBytes at hk
      obtain ⟨o, ho, hk⟩ := (Res.bind_eq_ok _ _ _).mp hk
      cases hk
      refine ⟨fun j => ⟨pub_after_pub _ _ _, sec_after_pub _ _ _⟩, mpk, o, hm, ?_, ?_⟩
      · unfold Container.getComponent at ho
        cases e : SMap.find b!"k" mpk.comps with
        | none => rw [e] at ho; cases ho
        | some v =>
          rw [e] at ho
          cases v <;> first | (cases ho; rfl) | cases ho
      · intro b; cases o <;> simp

/-- `checkSecretKey` finds a key that was generated or loaded as a secret key. What is missing: the converse. -/
theorem C108_present_partial (c : Ctx G1 G2 GT) (id : Bytes) (h : held c id .sec ≠ none) : Cpa.checkSecretKey c id = true := by
  unfold held at h
  unfold Cpa.checkSecretKey KeyStore.checkSecretKey
  simp only [KeyStore.getSecretKey, KeyStore.touch] at h
  cases e : SMap.find id c.ks.sec with
  | none => rw [e] at h; exact absurd rfl h
  | some v => rfl

/-- After a key was deleted, `checkSecretKey` no longer finds it. What is missing: ids that named no key. -/
theorem C108_deleted_partial (c : Ctx G1 G2 GT) (id : Bytes) (h : ¬ Unused c id) :
    Cpa.checkSecretKey (Cpa.deleteKey c id).2 id = false := by
  have h1 : (c.ks.getKey id).1 ≠ none := fun e => h (getKey_none.mp e)
  unfold Cpa.deleteKey Cpa.checkSecretKey KeyStore.checkSecretKey KeyStore.deleteKey
  cases e : (c.ks.getKey id).1 with
  | none => exact absurd e h1
  | some k =>
    simp only [e]
    split <;> simp [SMap.find_erase]

/-- Deleting a key that does not exist makes `checkSecretKey` report it. -/
theorem C108_delete_absent_violated (c : Ctx G1 G2 GT) (id : Bytes) (h : Unused c id) :
    Cpa.checkSecretKey (Cpa.deleteKey c id).2 id = true ∧ Unused (Cpa.deleteKey c id).2 id := by
  have h1 : (c.ks.getKey id).1 = none := getKey_none.mpr h
  have e : Cpa.deleteKey c id = (none, { c with ks := (c.ks.getKey id).2 }) := by
    unfold Cpa.deleteKey KeyStore.deleteKey
    simp only [h1]
  rw [e]
  refine ⟨?_, ?_⟩
  · have := (KeyStore.C60_validate_creates_violated c.ks id h1).2
    exact this
  · have := lookup_after_get c.ks id id
    exact ⟨this.1.trans h.1, this.2.trans h.2⟩

/-- So does a decryption that failed for want of the key. -/
theorem C108_failed_decrypt_violated (env : Env G1 G2 GT) (sch : Scheme) (c : Ctx G1 G2 GT) (keyID : Bytes)
    (ct : Ciphertext G1 G2 GT) (hm : held c keyID .sec = none) :
    ∃ c', decrypt q env sch c keyID ct = .ok (some .invalidInput, [], c') ∧ held c' keyID .sec = none ∧
      Cpa.checkSecretKey c' keyID = true := by
  have hm' : (c.ks.getSecretKey keyID).1 = none := hm
  refine ⟨{ c with ks := (c.ks.getSecretKey keyID).2 }, ?_, ?_, ?_⟩
  · unfold decrypt decryptKEM
    simp only [hm', Res.ok_bind]; rfl
  · exact (sec_after_sec c.ks keyID keyID).trans hm'
  · unfold Cpa.checkSecretKey KeyStore.checkSecretKey
    simp only [KeyStore.getSecretKey, KeyStore.touch]
    cases e : SMap.find keyID c.ks.sec with
    | none => simp [SMap.find_insert]
    | some v => simp [e]

end c108

end Abe
