import Verif.Proof.Wire
import Verif.Props.Keystore
/-!
# Return codes, keys between contexts, overwritten keys, malformed keys (C89-C92)
-/
set_option linter.unusedSimpArgs false
set_option linter.unusedSectionVars false
set_option autoImplicit false
namespace Abe
namespace Cpa
open Scheme

section ks
variable {K : Type}

theorem sec_after_sec (ks : KeyStore K) (i j : Bytes) :
    ((ks.getSecretKey i).2.getSecretKey j).1 = (ks.getSecretKey j).1 := touch_touch _ _ _

theorem lookup_after_get (ks : KeyStore K) (i j : Bytes) :
    ((ks.getKey i).2.getPublicKey j).1 = (ks.getPublicKey j).1 ∧
    ((ks.getKey i).2.getSecretKey j).1 = (ks.getSecretKey j).1 := by
  unfold KeyStore.getKey
  cases h : (ks.getPublicKey i).1 with
  | some k => simp only [h]; exact ⟨pub_after_pub _ _ _, sec_after_pub _ _ _⟩
  | none =>
    simp only [h]
    exact ⟨pub_after_pub _ _ _, sec_after_sec (ks.getPublicKey i).2 i j⟩

theorem getKey_pub {ks : KeyStore K} {i : Bytes} {k : K} (h : (ks.getPublicKey i).1 = some k) : (ks.getKey i).1 = some k := by
  unfold KeyStore.getKey; simp only [h]

theorem getKey_sec {ks : KeyStore K} {i : Bytes} {k : K} (h : (ks.getPublicKey i).1 = none)
    (h2 : (ks.getSecretKey i).1 = some k) : (ks.getKey i).1 = some k := by
  unfold KeyStore.getKey; simp only [h]; exact h2

theorem getKey_none {ks : KeyStore K} {i : Bytes} :
    (ks.getKey i).1 = none ↔ (ks.getPublicKey i).1 = none ∧ (ks.getSecretKey i).1 = none := by
  unfold KeyStore.getKey
  cases h : (ks.getPublicKey i).1 with
  | some k => simp [h]
  | none => simp only [h, true_and]; rfl

theorem validate_spec (ks : KeyStore K) (i : Bytes) :
    ((ks.validateNewParamsID i).1 = true ↔ (ks.getPublicKey i).1 = none ∧ (ks.getSecretKey i).1 = none) ∧
    ∀ j, ((ks.validateNewParamsID i).2.getPublicKey j).1 = (ks.getPublicKey j).1 ∧
      ((ks.validateNewParamsID i).2.getSecretKey j).1 = (ks.getSecretKey j).1 := by
  refine ⟨?_, fun j => ?_⟩
  · rw [← getKey_none]; simp [KeyStore.validateNewParamsID]
  · exact lookup_after_get ks i j

theorem pub_addPub_ne (ks : KeyStore K) {n j : Bytes} (k : K) (h : j ≠ n) :
    ((ks.addKey n k .pub).getPublicKey j).1 = (ks.getPublicKey j).1 := by
  show (KeyStore.touch (SMap.insert n (some k) ks.pub) j).1 = (KeyStore.touch ks.pub j).1
  simp [KeyStore.touch_spec, SMap.find_insert, h]

theorem sec_addSec_ne (ks : KeyStore K) {n j : Bytes} (k : K) (h : j ≠ n) :
    ((ks.addKey n k .sec).getSecretKey j).1 = (ks.getSecretKey j).1 := by
  show (KeyStore.touch (SMap.insert n (some k) ks.sec) j).1 = (KeyStore.touch ks.sec j).1
  simp [KeyStore.touch_spec, SMap.find_insert, h]

theorem sec_addPub (ks : KeyStore K) (n j : Bytes) (k : K) :
    ((ks.addKey n k .pub).getSecretKey j).1 = (ks.getSecretKey j).1 := rfl

end ks

variable {q : Nat} [Fact q.Prime] {G1 G2 GT : Type} [AddCommGroup G1] [AddCommGroup G2] [AddCommGroup GT]
  [Module (ZMod q) G1] [Module (ZMod q) G2] [Module (ZMod q) GT]

/-- Two contexts hold the same keys: every lookup gives the same. -/
def SameKeys (c d : Ctx G1 G2 GT) : Prop :=
  ∀ j, (d.ks.getPublicKey j).1 = (c.ks.getPublicKey j).1 ∧ (d.ks.getSecretKey j).1 = (c.ks.getSecretKey j).1

/-- An id that names no key. -/
def Unused (c : Ctx G1 G2 GT) (id : Bytes) : Prop :=
  (c.ks.getPublicKey id).1 = none ∧ (c.ks.getSecretKey id).1 = none

/-! ## C89 return codes -/

theorem params_total (env : Env G1 G2 GT) (sch : Scheme) (r : ParamRand q G1 G2) :
    ∃ pm : Container G1 G2 GT × Container G1 G2 GT, (match sch with | .cp => cpParams env r | .kp => kpParams env r) = .ok pm := by
  cases sch <;> exact ⟨_, rfl⟩

/-- `generateParams` succeeds exactly when neither id names a key; then the ids name the new master keys and every other
lookup is as before. Otherwise the code is `invalidParamsId` and no key changes. -/
theorem C89_generateParams (env : Env G1 G2 GT) (sch : Scheme) (c : Ctx G1 G2 GT) (mpkID mskID : Bytes)
    (r : ParamRand q G1 G2) :
    ∃ code c', generateParams env sch c mpkID mskID r = .ok (code, c') ∧ c'.ready = true ∧ c'.alg = c.alg ∧
      (¬ (Unused c mpkID ∧ Unused c mskID) → code = some .invalidParamsId ∧ SameKeys c c') ∧
      (Unused c mpkID → Unused c mskID → code = none ∧ ∃ mpk msk : Key G1 G2 GT,
        mpk.id = mpkID ∧ msk.id = mskID ∧ mpk.alg = c.alg ∧ msk.alg = c.alg ∧
        (c'.ks.getPublicKey mpkID).1 = some mpk ∧ (c'.ks.getSecretKey mskID).1 = some msk ∧
        (∀ j, j ≠ mpkID → (c'.ks.getPublicKey j).1 = (c.ks.getPublicKey j).1) ∧
        ∀ j, j ≠ mskID → (c'.ks.getSecretKey j).1 = (c.ks.getSecretKey j).1) := by
  obtain ⟨a1, a2⟩ := validate_spec c.ks mpkID
  obtain ⟨b1, b2⟩ := validate_spec (c.ks.validateNewParamsID mpkID).2 mskID
  rw [(a2 mskID).1, (a2 mskID).2] at b1
  obtain ⟨pm, hpm⟩ := params_total env sch r
  unfold generateParams
  by_cases h1 : (c.ks.validateNewParamsID mpkID).1 = false
  · simp only [h1, if_true]
    refine ⟨_, _, rfl, rfl, rfl, fun _ => ⟨rfl, a2⟩, fun hu => ?_⟩
    rw [a1.mpr hu] at h1; cases h1
  · simp only [h1, if_false]
    have h1' : (c.ks.validateNewParamsID mpkID).1 = true := by simpa using h1
    by_cases h2 : ((c.ks.validateNewParamsID mpkID).2.validateNewParamsID mskID).1 = false
    · simp only [h2, if_true]
      refine ⟨_, _, rfl, rfl, rfl, fun _ => ⟨rfl, fun j => ?_⟩, fun _ hu => ?_⟩
      · exact ⟨(b2 j).1.trans (a2 j).1, (b2 j).2.trans (a2 j).2⟩
      · rw [b1.mpr hu] at h2; cases h2
    · simp only [h2, if_false]
      have h2' : ((c.ks.validateNewParamsID mpkID).2.validateNewParamsID mskID).1 = true := by simpa using h2
      refine ⟨none, ⟨c.alg, true, (((c.ks.validateNewParamsID mpkID).2.validateNewParamsID mskID).2.addKey mpkID
          (newKey c.alg mpkID r.uid1 pm.1) .pub).addKey mskID (newKey c.alg mskID r.uid2 pm.2) .sec⟩, ?_, rfl, rfl, fun hn => absurd ⟨a1.mp h1', b1.mp h2'⟩ hn, fun _ _ => ⟨rfl, ?_⟩⟩
      · cases sch <;> (simp only at hpm ⊢; rw [hpm]; rfl)
      · refine ⟨newKey c.alg mpkID r.uid1 pm.1, newKey c.alg mskID r.uid2 pm.2, rfl, rfl, rfl, rfl, ?_, sec_addSec _ _ _, ?_, ?_⟩
        · rw [pub_addSec]; exact pub_addPub _ _ _
        · intro j hj
          rw [pub_addSec, pub_addPub_ne _ _ hj, (b2 j).1, (a2 j).1]
        · intro j hj
          rw [sec_addSec_ne _ _ hj, sec_addPub, (b2 j).2, (a2 j).2]

/-- The inputs that key generation takes: attributes in the ciphertext-policy scheme, a policy in the key-policy one. -/
def KeyInput : Scheme → FInput → Prop
  | .cp, .attrs _ => True
  | .kp, .policy _ => True
  | _, _ => False

/-- The inputs that encryption takes. -/
def EncInput : Scheme → FInput → Prop
  | .cp, .policy _ => True
  | .kp, .attrs _ => True
  | _, _ => False

/-- A null input or one of the wrong kind: `invalidInput`, and the context is untouched. -/
theorem C89_generateKey_input (env : Env G1 G2 GT) (sch : Scheme) (c : Ctx G1 G2 GT) (input : FInput)
    (keyID mpkID mskID : Bytes) (r : Rand q) (h : ¬ KeyInput sch input) :
    generateKey env sch c input keyID mpkID mskID r = .ok (some .invalidInput, c) := by
  unfold generateKey
  cases sch <;> cases input <;> first | rfl | exact absurd trivial h

/-- A master key is missing: `invalidParams`, and no key changes. -/
theorem C89_generateKey_missing (env : Env G1 G2 GT) (sch : Scheme) (c : Ctx G1 G2 GT) (input : FInput)
    (keyID mpkID mskID : Bytes) (r : Rand q) (h : KeyInput sch input)
    (hm : (c.ks.getPublicKey mpkID).1 = none ∨ (c.ks.getSecretKey mskID).1 = none) :
    ∃ c', generateKey env sch c input keyID mpkID mskID r = .ok (some .invalidParams, c') ∧ SameKeys c c' ∧
      c'.ready = c.ready ∧ c'.alg = c.alg := by
  have hs : SameKeys c { c with ks := ((c.ks.getPublicKey mpkID).2.getSecretKey mskID).2 } := fun j =>
    ⟨(pub_after_sec (c.ks.getPublicKey mpkID).2 mskID j).trans (pub_after_pub _ _ _),
      (sec_after_sec (c.ks.getPublicKey mpkID).2 mskID j).trans (sec_after_pub _ _ _)⟩
  refine ⟨_, ?_, hs, rfl, rfl⟩
  have hm' : (c.ks.getPublicKey mpkID).1 = none ∨ ((c.ks.getPublicKey mpkID).2.getSecretKey mskID).1 = none := hm
  unfold generateKey
  cases sch <;> cases input <;> first | exact absurd h id | skip
  all_goals
    simp only [Bool.true_eq_false, if_false]
    rcases hm' with h1 | h1
    · rw [h1]; rfl
    · rw [h1]; cases (c.ks.getPublicKey mpkID).1 <;> rfl

theorem encrypt_input (env : Env G1 G2 GT) (sch : Scheme) (c : Ctx G1 G2 GT) (mpkID : Bytes) (input : FInput)
    (len : Nat) (r : Rand q) (ct : Ciphertext G1 G2 GT) (h : ¬ EncInput sch input) :
    encryptKEM env sch c mpkID input len r ct = .ok (.error .invalidInput, c) := by
  unfold encryptKEM
  cases sch <;> cases input <;> first | rfl | exact absurd trivial h

theorem encrypt_missing (env : Env G1 G2 GT) (sch : Scheme) (c : Ctx G1 G2 GT) (mpkID : Bytes) (input : FInput)
    (len : Nat) (r : Rand q) (ct : Ciphertext G1 G2 GT) (h : EncInput sch input) (hm : (c.ks.getPublicKey mpkID).1 = none) :
    encryptKEM env sch c mpkID input len r ct = .ok (.error .invalidParams, { c with ks := (c.ks.getPublicKey mpkID).2 }) := by
  unfold encryptKEM
  cases sch <;> cases input <;> first | exact absurd h id | skip
  all_goals simp only [Bool.true_eq_false, if_false, hm]; rfl

/-- Encapsulation and encryption: `invalidInput` for a null input or one of the wrong kind, `invalidParams` when the
public key is missing; no key changes. -/
theorem C89_encrypt (env : Env G1 G2 GT) (sch : Scheme) (c : Ctx G1 G2 GT) (mpkID : Bytes) (input : FInput)
    (len : Nat) (plaintext : Bytes) (r : Rand q) (ct : Ciphertext G1 G2 GT) :
    (¬ EncInput sch input → encryptKEM env sch c mpkID input len r ct = .ok (.error .invalidInput, c) ∧
      encrypt env sch c mpkID input plaintext r ct = .ok (.error .invalidInput, c)) ∧
    (EncInput sch input → (c.ks.getPublicKey mpkID).1 = none → ∃ c', SameKeys c c' ∧
      encryptKEM env sch c mpkID input len r ct = .ok (.error .invalidParams, c') ∧
      encrypt env sch c mpkID input plaintext r ct = .ok (.error .invalidParams, c')) := by
  refine ⟨fun h => ⟨encrypt_input env sch c mpkID input len r ct h, ?_⟩, fun h hm => ⟨_, ?_, encrypt_missing env sch c mpkID input len r ct h hm, ?_⟩⟩
  · unfold encrypt; rw [encrypt_input env sch c mpkID input _ r ct h]; rfl
  · exact fun j => ⟨pub_after_pub _ _ _, sec_after_pub _ _ _⟩
  · unfold encrypt; rw [encrypt_missing env sch c mpkID input _ r ct h hm]; rfl

/-- Decapsulation and decryption: `invalidInput` when the key is missing; no key changes. -/
theorem C89_decrypt (env : Env G1 G2 GT) (sch : Scheme) (c : Ctx G1 G2 GT) (keyID : Bytes) (len : Nat)
    (ct : Ciphertext G1 G2 GT) (hm : (c.ks.getSecretKey keyID).1 = none) :
    ∃ c', SameKeys c c' ∧ decryptKEM q env sch c keyID ct len = .ok (.error .invalidInput, c') ∧
      decrypt q env sch c keyID ct = .ok (some .invalidInput, [], c') := by
  have h : ∀ n, decryptKEM q env sch c keyID ct n = .ok (.error .invalidInput, { c with ks := (c.ks.getSecretKey keyID).2 }) := by
    intro n
    unfold decryptKEM
    simp only [hm]; rfl
  refine ⟨{ c with ks := (c.ks.getSecretKey keyID).2 }, fun j => ⟨pub_after_sec _ _ _, sec_after_sec _ _ _⟩, h len, ?_⟩
  unfold decrypt; rw [h]; rfl

/-- Exporting: `invalidInput` for an id that names no key; no key changes, whatever happens. -/
theorem C89_exportKey (cd : Codec G1 G2 GT) (c : Ctx G1 G2 GT) (keyID : Bytes) :
    (Unused c keyID → ∃ c', exportKey cd c keyID = .ok (.error .invalidInput, c')) ∧
    ∀ r c', exportKey cd c keyID = .ok (r, c') → SameKeys c c' ∧ c'.ready = c.ready ∧ c'.alg = c.alg := by
  refine ⟨fun h => ?_, fun r c' h => ?_⟩
  · have : (c.ks.getKey keyID).1 = none := getKey_none.mpr h
    unfold exportKey; simp only [this]
    exact ⟨_, rfl⟩
  · have key : c' = { c with ks := (c.ks.getKey keyID).2 } := by
      unfold exportKey at h
      simp only at h
      split at h
      · cases h; rfl
      · obtain ⟨x, -, h⟩ := (Res.bind_eq_ok _ _ _).mp h
        cases x <;> · simp only at h; cases h; rfl
    subst key
    exact ⟨fun j => lookup_after_get c.ks keyID j, rfl, rfl⟩

/-- The hypotheses of the C89 theorems are met: a new context has no keys, both wrong inputs exist. -/
example (l : AttrList) (p : Policy) : Unused (⟨101, false, {}⟩ : Ctx G1 G2 GT) b!"mpk" ∧ KeyInput .cp (.attrs l) ∧ KeyInput .kp (.policy p) ∧
    ¬ KeyInput .cp (.policy p) ∧ ¬ KeyInput .kp .null ∧ EncInput .cp (.policy p) ∧ ¬ EncInput .cp (.attrs l) :=
  ⟨⟨rfl, rfl⟩, trivial, trivial, id, id, trivial, id⟩

/-! ## C91 keys are not overwritten -/

theorem generateKey_shape {env : Env G1 G2 GT} {sch : Scheme} {c c' : Ctx G1 G2 GT} {input : FInput}
    {keyID mpkID mskID : Bytes} {r : Rand q} (h : generateKey env sch c input keyID mpkID mskID r = .ok (none, c')) :
    ∃ mpk msk d, (c.ks.getPublicKey mpkID).1 = some mpk ∧ (c.ks.getSecretKey mskID).1 = some msk ∧
      ((∃ l, sch = .cp ∧ input = .attrs l ∧ cpKeyBody env c mpk msk l r.x = .ok d) ∨
        ∃ p, sch = .kp ∧ input = .policy p ∧ kpKeyBody env c mpk msk p r.tape r.r = .ok d) ∧
      c' = ⟨c.alg, c.ready, ((c.ks.getPublicKey mpkID).2.getSecretKey mskID).2.addKey keyID (newKey c.alg keyID r.uid d) .sec⟩ := by
  have key : ∀ (b : Res (Container G1 G2 GT)) (c1 : Ctx G1 G2 GT),
      (caught b >>= fun res => match res with
        | .error e => Res.ok (some e, c1)
        | .ok comps => Res.ok ((none : Option Err), { c1 with ks := c1.ks.addKey keyID (newKey c.alg keyID r.uid comps) .sec })) = .ok (none, c') →
      ∃ d, b = .ok d ∧ c' = { c1 with ks := c1.ks.addKey keyID (newKey c.alg keyID r.uid d) .sec } := by
    intro b c1 hb
    obtain ⟨res, g1, g2⟩ := (Res.bind_eq_ok _ _ _).mp hb
    cases res with
    | error e => cases g2
    | ok d =>
      refine ⟨d, ?_, by simp only at g2; cases g2; rfl⟩
      unfold caught at g1
      split at g1 <;> simp_all
  unfold generateKey at h
  have e2 : ((c.ks.getPublicKey mpkID).2.getSecretKey mskID).1 = (c.ks.getSecretKey mskID).1 := sec_after_pub _ _ _
  cases sch <;> cases input <;> simp only [if_true, Bool.true_eq_false, if_false] at h
  all_goals first
    | (cases h)
    | skip
  all_goals
    obtain ⟨d, hd, hc⟩ := key _ _ h
    rw [e2] at hd
    cases hm : (c.ks.getPublicKey mpkID).1 with
    | none => rw [hm] at hd; cases hd
    | some mpk =>
      cases hs : (c.ks.getSecretKey mskID).1 with
      | none => rw [hm, hs] at hd; cases hd
      | some msk =>
        rw [hm, hs] at hd
        refine ⟨mpk, msk, d, rfl, rfl, ?_, hc⟩
        first
        | exact .inl ⟨_, rfl, rfl, hd⟩
        | exact .inr ⟨_, rfl, rfl, hd⟩

/-- Successful key generation changes one lookup only: the secret key under `keyID`. What is missing: nothing checks
that `keyID` was unused, see the violations. -/
theorem C91_keygen_partial (env : Env G1 G2 GT) (sch : Scheme) (c c' : Ctx G1 G2 GT) (input : FInput)
    (keyID mpkID mskID : Bytes) (r : Rand q) (h : generateKey env sch c input keyID mpkID mskID r = .ok (none, c')) :
    (∃ dk, (c'.ks.getSecretKey keyID).1 = some dk ∧ dk.id = keyID ∧ dk.alg = c.alg) ∧
    (∀ j, j ≠ keyID → (c'.ks.getSecretKey j).1 = (c.ks.getSecretKey j).1) ∧
    ∀ j, (c'.ks.getPublicKey j).1 = (c.ks.getPublicKey j).1 := by
  obtain ⟨mpk, msk, d, h1, h2, -, rfl⟩ := generateKey_shape h
  refine ⟨⟨newKey c.alg keyID r.uid d, sec_addSec _ _ _, rfl, rfl⟩, fun j hj => ?_, fun j => ?_⟩
  · rw [sec_addSec_ne _ _ hj, sec_after_sec, sec_after_pub]
  · rw [pub_addSec, pub_after_sec, pub_after_pub]

/-- Loading changes one lookup only. What is missing: nothing checks that `id` was unused. -/
theorem C91_load_partial (mk : Mktime) (cd : Codec G1 G2 GT) (c c' : Ctx G1 G2 GT) (id blob rnd : Bytes) (code : Option Err)
    (kind : KeyKind) (h : loadKey mk cd c id blob rnd kind = .ok (code, c')) :
    c'.ready = true ∧ c'.alg = c.alg ∧
    (∀ j, j ≠ id ∨ kind ≠ .sec → (c'.ks.getSecretKey j).1 = (c.ks.getSecretKey j).1) ∧
    (∀ j, j ≠ id ∨ kind ≠ .pub → (c'.ks.getPublicKey j).1 = (c.ks.getPublicKey j).1) := by
  unfold loadKey at h
  obtain ⟨⟨k, body⟩, -, h⟩ := (Res.bind_eq_ok _ _ _).mp h
  simp only at h
  split at h
  · cases h; exact ⟨rfl, rfl, fun _ _ => rfl, fun _ _ => rfl⟩
  · obtain ⟨k1, -, h⟩ := (Res.bind_eq_ok _ _ _).mp h
    cases h
    refine ⟨rfl, rfl, fun j hj => ?_, fun j hj => ?_⟩
    · cases kind with
      | pub => rfl
      | other => rfl
      | sec => exact sec_addSec_ne _ _ (hj.resolve_right (fun h => h rfl))
    · cases kind with
      | sec => rfl
      | other => rfl
      | pub => exact pub_addPub_ne _ _ (hj.resolve_right (fun h => h rfl))

theorem set_find_ne {c d : Container G1 G2 GT} {n m : Bytes} {o : Obj G1 G2 GT} (h : Container.setComponent c n o = .ok d)
    (hm : m ≠ n) : SMap.find m d = SMap.find m c := by
  unfold Container.setComponent at h
  obtain ⟨o', -, h⟩ := (Res.bind_eq_ok _ _ _).mp h
  cases h
  rw [SMap.find_insert, if_neg hm]

theorem label_ne (b : UInt8) (bs u : Bytes) (x : UInt8) (xs : Bytes) (h : x ≠ b) : x :: xs ≠ elementLabel (b :: bs) u := by
  simp [elementLabel, h]

theorem cpKeyLoop_find {env : Env G1 G2 GT} {k : Option Bytes} {t : ZMod q} : ∀ (as : List Bytes) (d d' : Container G1 G2 GT),
    cpKeyLoop env k t as d = .ok d' → SMap.find b!"alpha" d' = SMap.find b!"alpha" d
  | [], d, d', h => by cases h; rfl
  | a :: as, d, d', h => by
    unfold cpKeyLoop at h
    obtain ⟨kb, -, h⟩ := (Res.bind_eq_ok _ _ _).mp h
    obtain ⟨d1, h1, h⟩ := (Res.bind_eq_ok _ _ _).mp h
    rw [cpKeyLoop_find as d1 d' h, set_find_ne h1 (label_ne 75 b!"X" _ 97 _ (by decide))]

theorem kpKeyLoop_find {env : Env G1 G2 GT} {mpk : Key G1 G2 GT} {k : Option Bytes} {r : Nat → ZMod q} :
    ∀ (rows : List (Bytes × (Bytes × ZMod q))) (i : Nat) (d d' : Container G1 G2 GT),
    kpKeyLoop env mpk k r i rows d = .ok d' → SMap.find b!"y" d' = SMap.find b!"y" d
  | [], _, d, d', h => by cases h; rfl
  | row :: rows, i, d, d', h => by
    unfold kpKeyLoop at h
    obtain ⟨_, -, h⟩ := (Res.bind_eq_ok _ _ _).mp h
    obtain ⟨g1, -, h⟩ := (Res.bind_eq_ok _ _ _).mp h
    obtain ⟨kb, -, h⟩ := (Res.bind_eq_ok _ _ _).mp h
    obtain ⟨_, -, h⟩ := (Res.bind_eq_ok _ _ _).mp h
    obtain ⟨g2, -, h⟩ := (Res.bind_eq_ok _ _ _).mp h
    obtain ⟨d1, h1, h⟩ := (Res.bind_eq_ok _ _ _).mp h
    obtain ⟨d2, h2, h⟩ := (Res.bind_eq_ok _ _ _).mp h
    rw [kpKeyLoop_find rows (i + 1) d2 d' h, set_find_ne h2 (label_ne 100 [] _ 121 _ (by decide)),
      set_find_ne h1 (label_ne 68 [] _ 121 _ (by decide))]

theorem keyBody_find {env : Env G1 G2 GT} {sch : Scheme} {c : Ctx G1 G2 GT} {mpk msk : Key G1 G2 GT} {input : FInput}
    {d : Container G1 G2 GT} {r : Rand q}
    (h : (∃ l, sch = .cp ∧ input = .attrs l ∧ cpKeyBody env c mpk msk l r.x = .ok d) ∨
        ∃ p, sch = .kp ∧ input = .policy p ∧ kpKeyBody env c mpk msk p r.tape r.r = .ok d) :
    SMap.find (match sch with | .cp => b!"alpha" | .kp => b!"y") d = none := by
  rcases h with ⟨l, rfl, rfl, h⟩ | ⟨p, rfl, rfl, h⟩
  · unfold cpKeyBody at h
    obtain ⟨_, -, h⟩ := (Res.bind_eq_ok _ _ _).mp h
    obtain ⟨d1, h1, h⟩ := (Res.bind_eq_ok _ _ _).mp h
    obtain ⟨_, -, h⟩ := (Res.bind_eq_ok _ _ _).mp h
    obtain ⟨_, -, h⟩ := (Res.bind_eq_ok _ _ _).mp h
    obtain ⟨_, -, h⟩ := (Res.bind_eq_ok _ _ _).mp h
    obtain ⟨_, -, h⟩ := (Res.bind_eq_ok _ _ _).mp h
    obtain ⟨_, -, h⟩ := (Res.bind_eq_ok _ _ _).mp h
    obtain ⟨_, -, h⟩ := (Res.bind_eq_ok _ _ _).mp h
    obtain ⟨_, -, h⟩ := (Res.bind_eq_ok _ _ _).mp h
    obtain ⟨d2, h2, h⟩ := (Res.bind_eq_ok _ _ _).mp h
    obtain ⟨_, -, h⟩ := (Res.bind_eq_ok _ _ _).mp h
    obtain ⟨_, -, h⟩ := (Res.bind_eq_ok _ _ _).mp h
    obtain ⟨d3, h3, h⟩ := (Res.bind_eq_ok _ _ _).mp h
    show SMap.find b!"alpha" d = none
    rw [cpKeyLoop_find _ _ _ h, set_find_ne h3 (by decide), set_find_ne h2 (by decide), set_find_ne h1 (by decide)]
    rfl
  · unfold kpKeyBody at h
    obtain ⟨_, -, h⟩ := (Res.bind_eq_ok _ _ _).mp h
    obtain ⟨d1, h1, h⟩ := (Res.bind_eq_ok _ _ _).mp h
    obtain ⟨_, -, h⟩ := (Res.bind_eq_ok _ _ _).mp h
    obtain ⟨_, -, h⟩ := (Res.bind_eq_ok _ _ _).mp h
    obtain ⟨⟨sh, _⟩, -, h⟩ := (Res.bind_eq_ok _ _ _).mp h
    show SMap.find b!"y" d = none
    have e1 : SMap.find b!"y" d1 = none := by rw [set_find_ne h1 (by decide)]; rfl
    simp only at h
    split at h
    · cases h; exact e1
    · obtain ⟨_, -, h⟩ := (Res.bind_eq_ok _ _ _).mp h
      rw [kpKeyLoop_find _ _ _ _ h]; exact e1

/-- The code violates C91: key generation takes the id of the master secret key for the new key, succeeds, and the
master secret key is gone. Whenever that happens, the context holds a user key under that id and no later key generation
with it succeeds. -/
theorem C91_keygen_violated (env : Env G1 G2 GT) (sch : Scheme) (c c' : Ctx G1 G2 GT) (input : FInput)
    (mpkID mskID : Bytes) (r : Rand q) (h : generateKey env sch c input mskID mpkID mskID r = .ok (none, c'))
    (input' : FInput) (keyID' mpkID' : Bytes) (r' : Rand q) (c'' : Ctx G1 G2 GT) :
    generateKey env sch c' input' keyID' mpkID' mskID r' ≠ .ok (none, c'') := by
  intro h'
  obtain ⟨mpk, msk, d, -, -, hd, rfl⟩ := generateKey_shape h
  obtain ⟨mpk', msk', d', -, hs, hd', -⟩ := generateKey_shape h'
  have hm : msk' = newKey c.alg mskID r.uid d := by
    have : (((((c.ks.getPublicKey mpkID).2.getSecretKey mskID).2.addKey mskID (newKey c.alg mskID r.uid d) .sec).getSecretKey mskID).1) =
      some (newKey c.alg mskID r.uid d) := sec_addSec _ _ _
    rw [this] at hs; cases hs; rfl
  have hf := keyBody_find hd
  have hc : msk'.comps = d := by rw [hm]; rfl
  rcases hd' with ⟨l, rfl, rfl, g⟩ | ⟨p, rfl, rfl, g⟩
  · unfold cpKeyBody at g
    obtain ⟨_, -, g⟩ := (Res.bind_eq_ok _ _ _).mp g
    obtain ⟨_, -, g⟩ := (Res.bind_eq_ok _ _ _).mp g
    obtain ⟨_, -, g⟩ := (Res.bind_eq_ok _ _ _).mp g
    obtain ⟨_, g1, g⟩ := (Res.bind_eq_ok _ _ _).mp g
    simp only [getZP, Container.getComponent, hc, hf] at g1
    cases g1
  · unfold kpKeyBody at g
    obtain ⟨_, -, g⟩ := (Res.bind_eq_ok _ _ _).mp g
    obtain ⟨_, -, g⟩ := (Res.bind_eq_ok _ _ _).mp g
    obtain ⟨_, g1, g⟩ := (Res.bind_eq_ok _ _ _).mp g
    simp only [getZP, Container.getComponent, hc, hf] at g1
    cases g1

/-- Such a key generation exists: after any successful parameter generation, in the ciphertext-policy scheme, for
every list of attributes. -/
theorem C91_keygen_reachable_violated (env : Env G1 G2 GT) (c c1 : Ctx G1 G2 GT) (mpkID mskID : Bytes) (pr : ParamRand q G1 G2)
    (hgen : generateParams env .cp c mpkID mskID pr = .ok (none, c1)) (l : AttrList) (r : Rand q) :
    ∃ c', generateKey env .cp c1 (.attrs l) mskID mpkID mskID r = .ok (none, c') := by
  obtain ⟨hr, mpk, msk, h1, h2, hpm⟩ := generateParams_ok hgen
  obtain ⟨P, M, hPM, f1, f2, f3, f4, f5, f6, f7⟩ := cpParams_ok env pr
  have hpm' : cpParams env pr = .ok (mpk.comps, msk.comps) := hpm
  rw [hpm'] at hPM
  simp only [Res.ok.injEq, Prod.mk.injEq] at hPM
  obtain ⟨rfl, rfl⟩ := hPM
  have hd : cpKeyBody env c1 mpk msk l r.x = .ok (cpDk env pr l r.x) := by
    simp only [cpKeyBody, getBytes_of f5, getZP_of f6, getG2_of f2, getG2_of f7, usePairing_ok hr, Res.ok_bind,
      deref_some, setComponent_attrs, setComponent_g2, cpKeyLoop_eq, ZMod.natCast_zmod_val, cpDk]
  obtain ⟨c2, dk, hk, -⟩ := cp_generateKey (keyID := mskID) h1 h2 hd
  exact ⟨c2, hk⟩

/-- The code violates C91 for exports: an id that names a public key and a secret key exports the public key, so a user
key made under the id of the public key cannot be handed out. -/
theorem C91_export_violated (env : Env G1 G2 GT) (cd : Codec G1 G2 GT) (sch : Scheme) (c c' : Ctx G1 G2 GT) (input : FInput)
    (mpkID mskID : Bytes) (r : Rand q) (h : generateKey env sch c input mpkID mpkID mskID r = .ok (none, c'))
    (blob : Bytes) (c'' : Ctx G1 G2 GT) (hx : exportKey cd c' mpkID = .ok (.ok blob, c'')) :
    ∃ mpk, (c.ks.getPublicKey mpkID).1 = some mpk ∧ mpk.exportBytes cd = .ok blob := by
  obtain ⟨mpk, msk, d, h1, -, -, rfl⟩ := generateKey_shape h
  refine ⟨mpk, h1, ?_⟩
  have hg : ((((c.ks.getPublicKey mpkID).2.getSecretKey mskID).2.addKey mpkID (newKey c.alg mpkID r.uid d) .sec).getKey mpkID).1 = some mpk := by
    apply getKey_pub
    rw [pub_addSec, pub_after_sec, pub_after_pub]; exact h1
  unfold exportKey at hx
  simp only [hg] at hx
  obtain ⟨res, g1, g2⟩ := (Res.bind_eq_ok _ _ _).mp hx
  cases res with
  | error e => cases g2
  | ok b =>
    simp only [Res.ok.injEq, Prod.mk.injEq, Except.ok.injEq] at g2
    rw [← g2.1]
    unfold caught at g1
    split at g1 <;> simp_all

/-! ## C92 malformed key bytes -/

/-- When `loadKey` returns a code, it is either success and the key is there under its id with the scheme id of the
context, or `invalidKeyHeader` and no key changes. What is missing: malformed bytes raise, see the violation. -/
theorem C92_codes_partial (mk : Mktime) (cd : Codec G1 G2 GT) (c c' : Ctx G1 G2 GT) (id blob rnd : Bytes) (code : Option Err)
    (kind : KeyKind) (h : loadKey mk cd c id blob rnd kind = .ok (code, c')) :
    (code = none ∧ (kind ≠ .other → ∃ key, held c' id kind = some key ∧ key.alg = c.alg)) ∨
    (code = some .invalidKeyHeader ∧ SameKeys c c') := by
  unfold loadKey at h
  obtain ⟨⟨k, body⟩, -, h⟩ := (Res.bind_eq_ok _ _ _).mp h
  simp only at h
  split at h
  · cases h; exact .inr ⟨rfl, fun _ => ⟨rfl, rfl⟩⟩
  · rename_i ha
    obtain ⟨k1, h1, h⟩ := (Res.bind_eq_ok _ _ _).mp h
    cases h
    refine .inl ⟨rfl, fun hk => ⟨k1, ?_, ?_⟩⟩
    · cases kind with
      | pub => exact pub_addPub _ _ _
      | sec => exact sec_addSec _ _ _
      | other => exact absurd rfl hk
    · unfold Key.loadBody at h1
      obtain ⟨_, -, h1⟩ := (Res.bind_eq_ok _ _ _).mp h1
      cases h1
      simpa using ha

/-- The code violates C92: bytes shorter than a key header raise an exception that `loadKey` does not catch; its test for
a null header is never reached with one. -/
theorem C92_short_violated (mk : Mktime) (cd : Codec G1 G2 GT) (c : Ctx G1 G2 GT) (id blob rnd : Bytes) (kind : KeyKind)
    (h : blob.length < 18) : loadKey mk cd c id blob rnd kind = .throw .invalidInput := by
  have : (Key.construct blob rnd : Res (Option (Key G1 G2 GT × Bytes))) = .ok none := by
    unfold Key.construct
    have h' : blob.length < uidLen + 2 := h
    simp only [h', if_true]
  unfold loadKey Key.parseHeader
  rw [this]; rfl

/-- And `parseKeyHeader` never gives `loadKey` a null header to test for: it raises instead. -/
theorem C92_null_header_violated (blob rnd : Bytes) (h : (Key.construct blob rnd : Res (Option (Key G1 G2 GT × Bytes))) = .ok none)
    (mk : Mktime) (cd : Codec G1 G2 GT) (c : Ctx G1 G2 GT) (id : Bytes) (kind : KeyKind) :
    loadKey mk cd c id blob rnd kind = .throw .invalidInput := by
  unfold loadKey Key.parseHeader
  rw [h]; rfl

/-! ## C90 keys and ciphertexts sent as bytes -/

theorem generateParams_shape {env : Env G1 G2 GT} {sch : Scheme} {c c1 : Ctx G1 G2 GT} {mpkID mskID : Bytes}
    {pr : ParamRand q G1 G2} (h : generateParams env sch c mpkID mskID pr = .ok (none, c1)) :
    ∃ (ks : KeyStore (Key G1 G2 GT)) (P M : Container G1 G2 GT),
      ((sch = .cp ∧ cpParams env pr = .ok (P, M)) ∨ (sch = .kp ∧ kpParams env pr = .ok (P, M))) ∧
      c1 = ⟨c.alg, true, (ks.addKey mpkID (newKey c.alg mpkID pr.uid1 P) .pub).addKey mskID (newKey c.alg mskID pr.uid2 M) .sec⟩ := by
  unfold generateParams at h
  simp only at h
  split at h
  · simp at h
  · split at h
    · simp at h
    · refine ⟨((c.ks.validateNewParamsID mpkID).2.validateNewParamsID mskID).2, ?_⟩
      cases sch
      all_goals
        simp only at h
        obtain ⟨pm, hpm, h⟩ := (Res.bind_eq_ok _ _ _).mp h
        cases h
        refine ⟨pm.1, pm.2, ?_, rfl⟩
        first
        | exact .inl ⟨rfl, hpm⟩
        | exact .inr ⟨rfl, hpm⟩

/-- The code and the output of `decrypt`, without the context. -/
def outcome (r : Res (Option Err × Bytes × Ctx G1 G2 GT)) : Res (Option Err × Bytes) := r >>= fun x => .ok (x.1, x.2.1)

/-- The code or ciphertext of `encrypt`, without the context. -/
def ciphertextOf (r : Res (Except Err (Ciphertext G1 G2 GT) × Ctx G1 G2 GT)) : Res (Except Err (Ciphertext G1 G2 GT)) :=
  r >>= fun x => .ok x.1

/-- An authority makes parameters and a user key. Both can be exported; a sender that loads the public parameters gets
from `encrypt` what the authority would get, and a receiver that loads the user key and the bytes of the ciphertext gets
from `decrypt` what the authority would get. No assumption on policies, attributes or pairing.

What is missing: values whose bytes do not fit the length fields, policies or lists that did not come from the parser
(`WritableInput`), a user key under the id of a public key (C91). -/
theorem C90_transparent_partial (env : Env G1 G2 GT) (cd : Codec G1 G2 GT) (hc : CodecOk cd) (ho : cd.order = q) (sch : Scheme)
    (c c1 c2 : Ctx G1 G2 GT) (mpkID mskID keyID : Bytes) (pr : ParamRand q G1 G2) (kr : Rand q) (inK : FInput)
    (hgen : generateParams env sch c mpkID mskID pr = .ok (none, c1))
    (hkey : generateKey env sch c1 inK keyID mpkID mskID kr = .ok (none, c2))
    (ha : KnownAlg c.alg) (hu1 : pr.uid1.length = uidLen) (hu2 : kr.uid.length = uidLen) (hk : pr.k.length < 2 ^ 31)
    (hid1 : mpkID.length < 2 ^ 31) (hid2 : keyID.length < 2 ^ 31) (hfree : (c1.ks.getPublicKey keyID).1 = none)
    (hin : WritableInput env.mktime cd inK) (mpk dk : Key G1 G2 GT) (hmpk : (c2.ks.getPublicKey mpkID).1 = some mpk)
    (hdk : (c2.ks.getSecretKey keyID).1 = some dk) (hfP : Fits cd mpk.comps) (hfK : Fits cd dk.comps)
    (cE cD : Ctx G1 G2 GT) (hE : cE.alg = c.alg) (hD : cD.alg = c.alg) (idE idD rndE rndD : Bytes) :
    ∃ blobP c3 blobK c4 cE1 cD1, exportKey cd c2 mpkID = .ok (.ok blobP, c3) ∧
      exportKey cd c3 keyID = .ok (.ok blobK, c4) ∧
      loadMasterPublicParams env.mktime cd cE idE blobP rndE = .ok (none, cE1) ∧
      loadUserSecretParams env.mktime cd cD idD blobK rndD = .ok (none, cD1) ∧
      ∀ (inE : FInput) (pt : Bytes) (er : Rand q) (ct0 : Ciphertext G1 G2 GT),
        ciphertextOf (encrypt env sch cE1 idE inE pt er ct0) = ciphertextOf (encrypt env sch c2 mpkID inE pt er ct0) ∧
        ∀ ct, ciphertextOf (encrypt env sch c2 mpkID inE pt er ct0) = .ok (.ok ct) → WritableInput env.mktime cd inE →
          pt.length < 2 ^ 31 → ct0.uid.length = uidLen → ct0.version ≤ libraryVersion → ct0.comps = [] → Fits cd ct.comps →
          ∃ out ct', ct.exportBytes cd = .ok out ∧ Ciphertext.load env.mktime cd {} out = .ok ct' ∧
            outcome (decrypt q env sch cD1 idD ct') = outcome (decrypt q env sch c2 keyID ct) := by
  obtain ⟨ks, P, M, hpm, rfl⟩ := generateParams_shape hgen
  obtain ⟨mpk0, msk0, d, h1, h2, hd, rfl⟩ := generateKey_shape hkey
  -- the two keys
  have e1 : mpk = newKey c.alg mpkID pr.uid1 P := by
    rw [pub_addSec, pub_after_sec, pub_after_pub, pub_addSec, pub_addPub] at hmpk
    cases hmpk; rfl
  have e2 : dk = newKey c.alg keyID kr.uid d := by
    rw [sec_addSec] at hdk
    cases hdk; rfl
  have w1 : Writable env.mktime cd P ∧ P ≠ [] := by
    rcases hpm with ⟨-, h⟩ | ⟨-, h⟩
    · exact (cpParams_good h hk ho).1
    · exact (kpParams_good h hk ho).1
  have w2 : Writable env.mktime cd d ∧ d ≠ [] := by
    rcases hd with ⟨l, -, rfl, h⟩ | ⟨p, -, rfl, h⟩
    · exact cpKeyBody_good h hin
    · exact kpKeyBody_good h hin
  subst e1 e2
  obtain ⟨blobP, c3, x1, x2, x3, x4⟩ := key_transport (mk := env.mktime) hc (getKey_pub hmpk) hu1 rfl hid1 ha w1 hfP
  have hk3 : (c3.ks.getKey keyID).1 = some (newKey c.alg keyID kr.uid d) := by
    rw [x2]
    apply getKey_sec
    · rw [(lookup_after_get _ _ _).1, pub_addSec, pub_after_sec, pub_after_pub]
      exact hfree
    · rw [(lookup_after_get _ _ _).2]; exact hdk
  obtain ⟨blobK, c4, y1, y2, y3, y4⟩ := key_transport (mk := env.mktime) hc hk3 hu2 rfl hid2 ha w2 hfK
  obtain ⟨cE1, z1, z2, z3, z4⟩ := x4 cE idE rndE .pub hE
  obtain ⟨cD1, v1, v2, v3, v4⟩ := y4 cD idD rndD .sec hD
  obtain ⟨mpk', z5, z6⟩ := z4 (by decide)
  obtain ⟨dk', v5, v6⟩ := v4 (by decide)
  refine ⟨blobP, c3, blobK, c4, cE1, cD1, x1, y1, z1, v1, ?_⟩
  intro inE pt er ct0
  have hee := encrypt_congr env sch (c := ⟨c.alg, true, _⟩) (c' := cE1) z2.symm (by rw [z3, hE]) hmpk z5 z6 inE pt er ct0
  refine ⟨hee.symm, ?_⟩
  intro ct hct hi hpt hu hv h0 hfC
  obtain ⟨⟨r0, cx⟩, g1, g2⟩ := (Res.bind_eq_ok _ _ _).mp hct
  cases g2
  obtain ⟨w3, i1, i2, i3⟩ := encrypt_good (mk := env.mktime) (cd := cd) g1 (by rw [h0]; exact good_nil) hi hpt
  obtain ⟨out, ct', o1, o2, o3⟩ := ct_transport (mk := env.mktime) hc (by rw [i2]; exact hu) (by rw [i1]; exact hv) (by rw [i3]; exact ha) w3 hfC
  refine ⟨out, ct', o1, o2, ?_⟩
  exact (decrypt_congr env sch (c := ⟨c.alg, true, _⟩) (c' := cD1) v2.symm hdk v5 v6 o3).symm

/-- The user key that key generation makes, or its code. -/
def madeKey (keyID : Bytes) (r : Res (Option Err × Ctx G1 G2 GT)) : Res (Except Err (Option (Key G1 G2 GT))) :=
  r >>= fun x => match x.1 with
    | some e => .ok (.error e)
    | none => .ok (.ok (x.2.ks.getSecretKey keyID).1)

theorem generateKey_congr (env : Env G1 G2 GT) (sch : Scheme) {c c' : Ctx G1 G2 GT} (hr : c.ready = c'.ready) (ha : c.alg = c'.alg)
    {i i' j j' : Bytes} {mpk mpk' msk msk' : Key G1 G2 GT} (h1 : (c.ks.getPublicKey i).1 = some mpk)
    (h2 : (c'.ks.getPublicKey i').1 = some mpk') (hk : Alike mpk.comps mpk'.comps)
    (h3 : (c.ks.getSecretKey j).1 = some msk) (h4 : (c'.ks.getSecretKey j').1 = some msk') (hs : Alike msk.comps msk'.comps)
    (input : FInput) (keyID : Bytes) (r : Rand q) :
    madeKey keyID (generateKey env sch c input keyID i j r) = madeKey keyID (generateKey env sch c' input keyID i' j' r) := by
  have h3' : ((c.ks.getPublicKey i).2.getSecretKey j).1 = some msk := h3
  have h4' : ((c'.ks.getPublicKey i').2.getSecretKey j').1 = some msk' := h4
  unfold generateKey
  simp only [h1, h2, h3', h4']
  cases sch <;> cases input <;> simp only [Bool.true_eq_false, if_false, if_true] <;> try rfl
  all_goals
    first
    | rw [cpKeyBody_congr env hr hk hs, ha]
    | rw [kpKeyBody_congr env hr hk hs, ha]
  · cases caught (cpKeyBody env c' mpk' msk' _ r.x) with
    | ok x =>
      cases x with
      | error e => rfl
      | ok d => simp only [Res.ok_bind, madeKey, sec_addSec]
    | _ => rfl
  · cases caught (kpKeyBody env c' mpk' msk' _ r.tape r.r) with
    | ok x =>
      cases x with
      | error e => rfl
      | ok d => simp only [Res.ok_bind, madeKey, sec_addSec]
    | _ => rfl

/-- The master keys can be moved too: an authority that loads both exported master keys makes, from the same random
values, the same user keys (or fails with the same code). What is missing: values whose bytes do not fit the length
fields, one id for both keys. -/
theorem C90_master_partial (env : Env G1 G2 GT) (cd : Codec G1 G2 GT) (hc : CodecOk cd) (ho : cd.order = q) (sch : Scheme)
    (c c1 : Ctx G1 G2 GT) (mpkID mskID : Bytes) (pr : ParamRand q G1 G2)
    (hgen : generateParams env sch c mpkID mskID pr = .ok (none, c1)) (hne : mskID ≠ mpkID)
    (ha : KnownAlg c.alg) (hu1 : pr.uid1.length = uidLen) (hu2 : pr.uid2.length = uidLen) (hk : pr.k.length < 2 ^ 31)
    (hid1 : mpkID.length < 2 ^ 31) (hid2 : mskID.length < 2 ^ 31) (mpk msk : Key G1 G2 GT)
    (hmpk : (c1.ks.getPublicKey mpkID).1 = some mpk) (hmsk : (c1.ks.getSecretKey mskID).1 = some msk)
    (hfP : Fits cd mpk.comps) (hfS : Fits cd msk.comps) (d : Ctx G1 G2 GT) (hd : d.alg = c.alg) (idP idS rndP rndS : Bytes) :
    ∃ blobP c2 blobS c3 d1 d2, exportKey cd c1 mpkID = .ok (.ok blobP, c2) ∧ exportKey cd c2 mskID = .ok (.ok blobS, c3) ∧
      loadMasterPublicParams env.mktime cd d idP blobP rndP = .ok (none, d1) ∧
      loadMasterSecretParams env.mktime cd d1 idS blobS rndS = .ok (none, d2) ∧
      ∀ (input : FInput) (keyID : Bytes) (r : Rand q),
        madeKey keyID (generateKey env sch d2 input keyID idP idS r) = madeKey keyID (generateKey env sch c1 input keyID mpkID mskID r) := by
  have hun : (c.ks.getPublicKey mskID).1 = none := by
    obtain ⟨code, c', g1, -, -, g2, g3⟩ := C89_generateParams env sch c mpkID mskID pr
    rw [hgen] at g1
    cases g1
    by_cases hu : Unused c mpkID ∧ Unused c mskID
    · exact hu.2.1
    · exact absurd (g2 hu).1 (by simp)
  have hpub : (c1.ks.getPublicKey mskID).1 = none := by
    obtain ⟨code, c', g1, -, -, g2, g3⟩ := C89_generateParams env sch c mpkID mskID pr
    rw [hgen] at g1
    cases g1
    by_cases hu : Unused c mpkID ∧ Unused c mskID
    · obtain ⟨-, _, _, -, -, -, -, -, -, g4, -⟩ := g3 hu.1 hu.2
      rw [g4 _ hne]; exact hun
    · exact absurd (g2 hu).1 (by simp)
  obtain ⟨ks, P, M, hpm, rfl⟩ := generateParams_shape hgen
  have e1 : mpk = newKey c.alg mpkID pr.uid1 P := by
    rw [pub_addSec, pub_addPub] at hmpk
    cases hmpk; rfl
  have e2 : msk = newKey c.alg mskID pr.uid2 M := by
    rw [sec_addSec] at hmsk
    cases hmsk; rfl
  have w : (Writable env.mktime cd P ∧ P ≠ []) ∧ Writable env.mktime cd M ∧ M ≠ [] := by
    rcases hpm with ⟨-, h⟩ | ⟨-, h⟩
    · exact cpParams_good h hk ho
    · exact kpParams_good h hk ho
  subst e1 e2
  obtain ⟨blobP, c2, x1, x2, x3, x4⟩ := key_transport (mk := env.mktime) hc (getKey_pub hmpk) hu1 rfl hid1 ha w.1 hfP
  have hk2 : (c2.ks.getKey mskID).1 = some (newKey c.alg mskID pr.uid2 M) := by
    rw [x2]
    apply getKey_sec
    · rw [(lookup_after_get _ _ _).1]; exact hpub
    · rw [(lookup_after_get _ _ _).2]; exact hmsk
  obtain ⟨blobS, c3, y1, y2, y3, y4⟩ := key_transport (mk := env.mktime) hc hk2 hu2 rfl hid2 ha w.2 hfS
  obtain ⟨d1, z1, z2, z3, z4⟩ := x4 d idP rndP .pub hd
  obtain ⟨d2, v1, v2, v3, v4⟩ := y4 d1 idS rndS .sec (z3.trans hd)
  obtain ⟨mpk', z5, z6⟩ := z4 (by decide)
  obtain ⟨msk', v5, v6⟩ := v4 (by decide)
  refine ⟨blobP, c2, blobS, c3, d1, d2, x1, y1, z1, v1, ?_⟩
  intro input keyID r
  have z7 : (d2.ks.getPublicKey idP).1 = some mpk' := by
    rw [(C91_load_partial _ _ _ _ _ _ _ _ _ v1).2.2.2 idP (.inr (by decide))]; exact z5
  exact (generateKey_congr env sch (c := ⟨c.alg, true, _⟩) (c' := d2) v2.symm (by rw [v3, z3, hd]) hmpk z7 z6 hmsk v5 v6 input keyID r).symm

/-- The whole story, ciphertext-policy, from texts and with nothing but bytes between the three contexts: the authority's, the
sender's and the receiver's. Missing as in `C90_transparent_partial`. -/
theorem C90_cp_texts_partial (env : Env G1 G2 GT) (hb : Bilinear q env.e) (hnd : env.ndebug = false)
    (hmd : ∀ x, (env.md x).length = 32) (cd : Codec G1 G2 GT) (hc : CodecOk cd) (ho : cd.order = q)
    (c c1 : Ctx G1 G2 GT) (mpkID mskID keyID : Bytes) (pr : ParamRand q G1 G2) (kr er : Rand q)
    (hgen : generateParams env .cp c mpkID mskID pr = .ok (none, c1))
    (s l : Bytes) (e : Expr) (a : AExpr) (hs : PolicyText env.mktime s e) (hl : ListText env.mktime l a)
    (hpct : e.Unnumbered) (hs31 : s.length < 2 ^ 31)
    (ha : KnownAlg c.alg) (hu1 : pr.uid1.length = uidLen) (hu2 : kr.uid.length = uidLen) (hk : pr.k.length < 2 ^ 31)
    (hid1 : mpkID.length < 2 ^ 31) (hid2 : keyID.length < 2 ^ 31) (hfree : (c1.ks.getPublicKey keyID).1 = none)
    (cE cD : Ctx G1 G2 GT) (hE : cE.alg = c.alg) (hD : cD.alg = c.alg) (idE idD rndE rndD : Bytes)
    (ct0 : Ciphertext G1 G2 GT) (hu : ct0.uid.length = uidLen) (hv : ct0.version ≤ libraryVersion) (h0 : ct0.comps = [])
    (plaintext : Bytes) (hpt : plaintext.length < 2 ^ 31) :
    ∃ p al, createPolicyTree env.mktime s = .ok (some p) ∧ createAttributeList env.mktime l = .ok (some al) ∧
      (NoClash env.md (rowNames p) → NoClash env.md al.attrs → al.compact.length < 2 ^ 31 →
      ∃ mpk c2 dk, generateKey env .cp c1 (.attrs al) keyID mpkID mskID kr = .ok (none, c2) ∧
        (c2.ks.getPublicKey mpkID).1 = some mpk ∧ (c2.ks.getSecretKey keyID).1 = some dk ∧
        (Fits cd mpk.comps → Fits cd dk.comps → ∃ blobP c3 blobK c4 cE1 cD1 ct cE2,
          exportKey cd c2 mpkID = .ok (.ok blobP, c3) ∧ exportKey cd c3 keyID = .ok (.ok blobK, c4) ∧
          loadMasterPublicParams env.mktime cd cE idE blobP rndE = .ok (none, cE1) ∧
          loadUserSecretParams env.mktime cd cD idD blobK rndD = .ok (none, cD1) ∧
          encrypt env .cp cE1 idE (.policy p) plaintext er ct0 = .ok (.ok ct, cE2) ∧
          (Fits cd ct.comps → ∃ out ct' cD2, ct.exportBytes cd = .ok out ∧ Ciphertext.load env.mktime cd {} out = .ok ct' ∧
            (e.trueFor env.mktime a → decrypt q env .cp cD1 idD ct' = .ok (none, plaintext, cD2)) ∧
            (¬ e.trueFor env.mktime a → decrypt q env .cp cD1 idD ct' = .ok (some .decryptionFailed, [], cD2))))) := by
  obtain ⟨p, al, h1, h2, h3⟩ := C46_cp_texts env hb hnd hmd c c1 mpkID mskID keyID pr kr er hgen s l e a hs hl hpct ct0 plaintext
  refine ⟨p, al, h1, h2, ?_⟩
  intro n1 n2 n3
  obtain ⟨mpk, c2, dk, a1, a2, a3, a4⟩ := h3 n1 n2
  have hpl : p.compact.length < 2 ^ 31 := by rw [(accepted_shape h1).1]; exact hs31
  have hmpk : (c2.ks.getPublicKey mpkID).1 = some mpk := by
    rw [(C91_keygen_partial env _ c1 c2 _ _ _ _ kr a2).2.2]; exact a1
  have hr2 : c2.ready = true := by
    obtain ⟨_, _, _, _, _, _, e2⟩ := generateKey_shape a2
    obtain ⟨_, _, _, _, e1⟩ := generateParams_shape hgen
    rw [e2, e1]
  refine ⟨mpk, c2, dk, a2, hmpk, a3, ?_⟩
  intro f1 f2
  obtain ⟨blobP, c3, blobK, c4, cE1, cD1, b1, b2, b3, b4, b5⟩ := C90_transparent_partial env cd hc ho .cp c c1 c2 mpkID mskID keyID
    pr kr (.attrs al) hgen a2 ha hu1 hu2 hk hid1 hid2 hfree (.attrs _ _ h2 n3) mpk dk hmpk a3 f1 f2 cE cD hE hD idE idD rndE rndD
  obtain ⟨ct, x1, x2, d1, d2, d3⟩ := a4 c2 c2 mpkID keyID hr2 hr2 hmpk a3
  obtain ⟨g1, g2⟩ := b5 (.policy p) plaintext er ct0
  have g3 : ciphertextOf (encrypt env .cp c2 mpkID (.policy p) plaintext er ct0) = .ok (.ok ct) := by rw [d1]; rfl
  rw [g3] at g1
  obtain ⟨⟨r0, cE2⟩, i1, i2⟩ := (Res.bind_eq_ok _ _ _).mp g1
  cases i2
  refine ⟨blobP, c3, blobK, c4, cE1, cD1, ct, cE2, b1, b2, b3, b4, i1, ?_⟩
  intro f3
  obtain ⟨out, ct', o1, o2, o3⟩ := g2 ct g3 hpl hpt hu hv h0 f3
  by_cases ht : e.trueFor env.mktime a
  · rw [d2 ht] at o3
    obtain ⟨⟨r1, r2, cD2⟩, j1, j2⟩ := (Res.bind_eq_ok _ _ _).mp o3
    cases j2
    exact ⟨out, ct', cD2, o1, o2, fun _ => j1, fun h => absurd ht h⟩
  · rw [d3 ht] at o3
    obtain ⟨⟨r1, r2, cD2⟩, j1, j2⟩ := (Res.bind_eq_ok _ _ _).mp o3
    cases j2
    exact ⟨out, ct', cD2, o1, o2, fun h => absurd h ht, fun _ => j1⟩

/-- The whole story, key-policy, from texts and with nothing but bytes between the three contexts: the authority's, the
sender's and the receiver's. Missing as in `C90_transparent_partial`. -/
theorem C90_kp_texts_partial (env : Env G1 G2 GT) (hb : Bilinear q env.e) (hnd : env.ndebug = false)
    (hmd : ∀ x, (env.md x).length = 32) (cd : Codec G1 G2 GT) (hc : CodecOk cd) (ho : cd.order = q)
    (c c1 : Ctx G1 G2 GT) (mpkID mskID keyID : Bytes) (pr : ParamRand q G1 G2) (kr er : Rand q)
    (hgen : generateParams env .kp c mpkID mskID pr = .ok (none, c1))
    (s l : Bytes) (e : Expr) (a : AExpr) (hs : PolicyText env.mktime s e) (hl : ListText env.mktime l a)
    (hpct : e.Unnumbered) (hs31 : s.length < 2 ^ 31)
    (ha : KnownAlg c.alg) (hu1 : pr.uid1.length = uidLen) (hu2 : kr.uid.length = uidLen) (hk : pr.k.length < 2 ^ 31)
    (hid1 : mpkID.length < 2 ^ 31) (hid2 : keyID.length < 2 ^ 31) (hfree : (c1.ks.getPublicKey keyID).1 = none)
    (cE cD : Ctx G1 G2 GT) (hE : cE.alg = c.alg) (hD : cD.alg = c.alg) (idE idD rndE rndD : Bytes)
    (ct0 : Ciphertext G1 G2 GT) (hu : ct0.uid.length = uidLen) (hv : ct0.version ≤ libraryVersion) (h0 : ct0.comps = [])
    (plaintext : Bytes) (hpt : plaintext.length < 2 ^ 31) :
    ∃ p al, createPolicyTree env.mktime s = .ok (some p) ∧ createAttributeList env.mktime l = .ok (some al) ∧
      (NoClash env.md (rowNames p) → NoClash env.md al.attrs → al.compact.length < 2 ^ 31 →
      ∃ mpk c2 dk, generateKey env .kp c1 (.policy p) keyID mpkID mskID kr = .ok (none, c2) ∧
        (c2.ks.getPublicKey mpkID).1 = some mpk ∧ (c2.ks.getSecretKey keyID).1 = some dk ∧
        (Fits cd mpk.comps → Fits cd dk.comps → ∃ blobP c3 blobK c4 cE1 cD1 ct cE2,
          exportKey cd c2 mpkID = .ok (.ok blobP, c3) ∧ exportKey cd c3 keyID = .ok (.ok blobK, c4) ∧
          loadMasterPublicParams env.mktime cd cE idE blobP rndE = .ok (none, cE1) ∧
          loadUserSecretParams env.mktime cd cD idD blobK rndD = .ok (none, cD1) ∧
          encrypt env .kp cE1 idE (.attrs al) plaintext er ct0 = .ok (.ok ct, cE2) ∧
          (Fits cd ct.comps → ∃ out ct' cD2, ct.exportBytes cd = .ok out ∧ Ciphertext.load env.mktime cd {} out = .ok ct' ∧
            (e.trueFor env.mktime a → decrypt q env .kp cD1 idD ct' = .ok (none, plaintext, cD2)) ∧
            (¬ e.trueFor env.mktime a → decrypt q env .kp cD1 idD ct' = .ok (some .decryptionFailed, [], cD2))))) := by
  obtain ⟨p, al, h1, h2, h3⟩ := C46_kp_texts env hb hnd hmd c c1 mpkID mskID keyID pr kr er hgen s l e a hs hl hpct ct0 plaintext
  refine ⟨p, al, h1, h2, ?_⟩
  intro n1 n2 n3
  obtain ⟨mpk, c2, dk, a1, a2, a3, a4⟩ := h3 n1 n2
  have hpl : p.compact.length < 2 ^ 31 := by rw [(accepted_shape h1).1]; exact hs31
  have hmpk : (c2.ks.getPublicKey mpkID).1 = some mpk := by
    rw [(C91_keygen_partial env _ c1 c2 _ _ _ _ kr a2).2.2]; exact a1
  have hr2 : c2.ready = true := by
    obtain ⟨_, _, _, _, _, _, e2⟩ := generateKey_shape a2
    obtain ⟨_, _, _, _, e1⟩ := generateParams_shape hgen
    rw [e2, e1]
  refine ⟨mpk, c2, dk, a2, hmpk, a3, ?_⟩
  intro f1 f2
  obtain ⟨blobP, c3, blobK, c4, cE1, cD1, b1, b2, b3, b4, b5⟩ := C90_transparent_partial env cd hc ho .kp c c1 c2 mpkID mskID keyID
    pr kr (.policy p) hgen a2 ha hu1 hu2 hk hid1 hid2 hfree hpl mpk dk hmpk a3 f1 f2 cE cD hE hD idE idD rndE rndD
  obtain ⟨ct, x1, x2, d1, d2, d3⟩ := a4 c2 c2 mpkID keyID hr2 hr2 hmpk a3
  obtain ⟨g1, g2⟩ := b5 (.attrs al) plaintext er ct0
  have g3 : ciphertextOf (encrypt env .kp c2 mpkID (.attrs al) plaintext er ct0) = .ok (.ok ct) := by rw [d1]; rfl
  rw [g3] at g1
  obtain ⟨⟨r0, cE2⟩, i1, i2⟩ := (Res.bind_eq_ok _ _ _).mp g1
  cases i2
  refine ⟨blobP, c3, blobK, c4, cE1, cD1, ct, cE2, b1, b2, b3, b4, i1, ?_⟩
  intro f3
  obtain ⟨out, ct', o1, o2, o3⟩ := g2 ct g3 (.attrs _ _ h2 n3) hpt hu hv h0 f3
  by_cases ht : e.trueFor env.mktime a
  · rw [d2 ht] at o3
    obtain ⟨⟨r1, r2, cD2⟩, j1, j2⟩ := (Res.bind_eq_ok _ _ _).mp o3
    cases j2
    exact ⟨out, ct', cD2, o1, o2, fun _ => j1, fun h => absurd ht h⟩
  · rw [d3 ht] at o3
    obtain ⟨⟨r1, r2, cD2⟩, j1, j2⟩ := (Res.bind_eq_ok _ _ _).mp o3
    cases j2
    exact ⟨out, ct', cD2, o1, o2, fun h => absurd h ht, fun _ => j1⟩

/-! ### Concrete cases: the field with five elements, one byte each -/

namespace WireEx

/-- One byte. -/
def wr (x : ZMod 5) : Bytes := [UInt8.ofNat x.val]
/-- Inverse of `wr`. -/
def rd : Bytes → Res (ZMod 5)
  | [x] => .ok (x.toNat : ZMod 5)
  | _ => .throw .serializationFailed

/-- All three groups are the field. -/
def codec : Codec (ZMod 5) (ZMod 5) (ZMod 5) :=
  { order := 5, n1 := 1, n2 := 1, w1 := wr, r1 := rd, w2 := wr, r2 := rd, wT := wr, rT := rd }

theorem wr_rd : ∀ x : ZMod 5, rd (wr x) = .ok x := by
  intro x
  have : (∀ x : ZMod 5, ((UInt8.ofNat x.val).toNat : ZMod 5) = x) := by decide +kernel
  simp only [rd, wr, this x]

theorem codec_ok : CodecOk codec where
  order := by
    exact Nat.lt_of_lt_of_le (by decide : codec.order < 256 ^ 1) (Nat.pow_le_pow_right (by decide) (by decide))
  rw1 := wr_rd
  rw2 := wr_rd
  rwT := wr_rd
  len1 := fun _ => .inl rfl
  len2 := fun _ => .inl rfl
  ne1 := fun _ => by simp [codec, wr]
  ne2 := fun _ => by simp [codec, wr]
  neT := fun _ => by simp [codec, wr]
  small1 := fun _ => by simp [codec, wr]
  small2 := fun _ => by simp [codec, wr]
  smallT := fun _ => by simp [codec, wr]

def env : Env (ZMod 5) (ZMod 5) (ZMod 5) := Toy.env Toy.mk0 LsssEx.sort
def u : Bytes := List.replicate 16 7
def pr : ParamRand 5 (ZMod 5) (ZMod 5) := ⟨1, 2, 3, 4, [1, 2, 3], u, u⟩
def rnd : Rand 5 := ⟨3, fun i => (i : ZMod 5) + 1, fun i => (i : ZMod 5) + 2, u⟩
def ctx : Ctx (ZMod 5) (ZMod 5) (ZMod 5) := ⟨101, false, {}⟩

/-- The serialization succeeds and is short. -/
def fits (c : Container (ZMod 5) (ZMod 5) (ZMod 5)) : Bool :=
  match Container.serialize codec c with | .ok b => b.length < 1000 | _ => false

theorem fits_spec {c : Container (ZMod 5) (ZMod 5) (ZMod 5)} (h : fits c = true) : Fits codec c := by
  intro b hb
  rw [fits, hb] at h
  simp at h
  omega

/-- Parameters, a key for `|a|c` and a ciphertext for `a and (b or c)`: everything fits. -/
def session : Bool :=
  match generateParams env .cp ctx b!"mpk" b!"msk" pr, createAttributeList Toy.mk0 b!"|a|c", createPolicyTree Toy.mk0 b!"a and (b or c)" with
  | .ok (none, c1), .ok (some al), .ok (some p) =>
    match generateKey env .cp c1 (.attrs al) b!"dk" b!"mpk" b!"msk" rnd with
    | .ok (none, c2) =>
      match (c2.ks.getPublicKey b!"mpk").1, (c2.ks.getSecretKey b!"dk").1,
        encrypt env .cp c2 b!"mpk" (.policy p) b!"hello" rnd { uid := u } with
      | some mpk, some dk, .ok (.ok ct, _) => fits mpk.comps && fits dk.comps && fits ct.comps && (c1.ks.getPublicKey b!"dk").1.isNone &&
        al.compact.length < 1000
      | _, _, _ => false
    | _ => false
  | _, _, _ => false

theorem session_ok : session = true := by decide +kernel

/-- The hypotheses of `C90_transparent_partial`, and of `C90_cp_texts_partial` beyond those of `C46_cp_texts`, are met. -/
example : CodecOk codec ∧ codec.order = 5 ∧ KnownAlg ctx.alg ∧ pr.uid1.length = uidLen ∧ rnd.uid.length = uidLen ∧
    ∃ c1 al p c2 mpk dk ct cx, generateParams env .cp ctx b!"mpk" b!"msk" pr = .ok (none, c1) ∧
      createAttributeList Toy.mk0 b!"|a|c" = .ok (some al) ∧ createPolicyTree Toy.mk0 b!"a and (b or c)" = .ok (some p) ∧
      WritableInput Toy.mk0 codec (.attrs al) ∧ WritableInput Toy.mk0 codec (.policy p) ∧
      generateKey env .cp c1 (.attrs al) b!"dk" b!"mpk" b!"msk" rnd = .ok (none, c2) ∧ (c1.ks.getPublicKey b!"dk").1 = none ∧
      (c2.ks.getPublicKey b!"mpk").1 = some mpk ∧ (c2.ks.getSecretKey b!"dk").1 = some dk ∧ Fits codec mpk.comps ∧ Fits codec dk.comps ∧
      encrypt env .cp c2 b!"mpk" (.policy p) b!"hello" rnd { uid := u } = .ok (.ok ct, cx) ∧ Fits codec ct.comps := by
  refine ⟨codec_ok, rfl, by unfold KnownAlg; decide, rfl, rfl, ?_⟩
  have h := session_ok
  unfold session at h
  split at h
  · rename_i c1 al p h1 h2 h3
    split at h
    · rename_i c2 h4
      split at h
      · rename_i mpk dk ct cx h5 h6 h7
        simp only [Bool.and_eq_true, decide_eq_true_eq, Option.isNone_iff_eq_none] at h
        obtain ⟨⟨⟨⟨f1, f2⟩, f3⟩, f4⟩, f5⟩ := h
        refine ⟨c1, al, p, c2, mpk, dk, ct, cx, h1, h2, h3, .attrs _ _ h2 (by omega), ?_, h4, f4, h5, h6, fits_spec f1, fits_spec f2, h7, fits_spec f3⟩
        show p.compact.length < 2 ^ 31
        rw [(accepted_shape h3).1]; decide
      · cases h
    · cases h
  · cases h

/-- The exported key without attributes: the header, then the components `K`, `L` and `input`. -/
def emptyHeader : Bytes := [170, 101] ++ u ++ b!"dk"
def emptyBody : Bytes := [161, 1, 75, 161, 4, 179, 161, 1, 0, 161, 1, 76, 161, 4, 179, 161, 1, 1, 161, 5] ++ b!"input" ++ [161, 1, 124]
def emptyBlob : Bytes := [0, 0, 0, 20] ++ emptyHeader ++ [0, 0, 0, 28] ++ emptyBody

set_option maxRecDepth 20000 in
theorem empty_header (rnd : Bytes) : (Key.parseHeader emptyBlob rnd : Res (Key (ZMod 5) (ZMod 5) (ZMod 5) × Bytes)) =
    .ok (Key.new 101 b!"dk" (some u) rnd, emptyBody) := rfl

end WireEx

/-- The code violates C90 for keys without attributes (`OpenABEAttributeList(0, {})`): key generation accepts the empty
list and the key is exported, but loading it raises. -/
theorem C90_empty_list_violated : ∃ (env : Env (ZMod 5) (ZMod 5) (ZMod 5)) (cd : Codec (ZMod 5) (ZMod 5) (ZMod 5))
    (c1 c2 c3 : Ctx (ZMod 5) (ZMod 5) (ZMod 5)) (pr : ParamRand 5 (ZMod 5) (ZMod 5)) (r : Rand 5) (al : AttrList) (blob : Bytes),
    CodecOk cd ∧ cd.order = 5 ∧ Bilinear 5 env.e ∧ AttrList.ofArgs env.mktime 0 [] = .ok al ∧
    generateParams env .cp ⟨101, false, {}⟩ b!"mpk" b!"msk" pr = .ok (none, c1) ∧
    generateKey env .cp c1 (.attrs al) b!"dk" b!"mpk" b!"msk" r = .ok (none, c2) ∧
    exportKey cd c2 b!"dk" = .ok (.ok blob, c3) ∧
    ∀ (c : Ctx (ZMod 5) (ZMod 5) (ZMod 5)) (id rnd : Bytes), c.alg = 101 →
      loadUserSecretParams env.mktime cd c id blob rnd = .throw .invalidAttributeList := by
  refine ⟨WireEx.env, WireEx.codec, _, _, _, WireEx.pr, WireEx.rnd, {}, WireEx.emptyBlob, WireEx.codec_ok, rfl, Toy.bilinear _ _, rfl, rfl, rfl, rfl, ?_⟩
  intro c id rnd hc
  unfold loadUserSecretParams loadKey
  rw [WireEx.empty_header]
  have h : ¬ (Key.new 101 b!"dk" (some WireEx.u) rnd : Key (ZMod 5) (ZMod 5) (ZMod 5)).alg ≠ c.alg := by rw [hc]; exact fun h => h rfl
  simp only [Res.ok_bind, h, if_false]
  rfl

end Cpa
end Abe
