import Verif.Proof.SchemeObjects
import Verif.Props.Wire
/-!
# Failed operations and the objects they leave behind (C117)

`OpenABEContainer::getComponent` looks names up with `val[name]` (zcontainer.cpp:97-106), so a lookup that fails leaves a
null pointer in the key or ciphertext. The programs here use one context and any number of ciphertext objects, in any order, with
any arguments and any bytes from outside (`Live.Call`). Their calls are compared with the same calls on values
(`Live.valueStep`), where lookups change nothing; that model is the one all other properties of the schemes are about.
-/
set_option linter.unusedSimpArgs false
set_option linter.unusedSectionVars false
set_option autoImplicit false
namespace Abe
open Scheme Live

variable {G1 G2 GT : Type} {q : Nat} [Fact q.Prime]
variable [AddCommGroup G1] [Module (ZMod q) G1] [AddCommGroup G2] [Module (ZMod q) G2] [AddCommGroup GT]
  [Module (ZMod q) GT]

/-- **C117** After every list of calls, a call gives exactly what it gives on values: null entries that earlier failures left
in keys and ciphertexts never change the result of key generation, encryption, decryption, loading, deletion or a query. The
only exception are exports of an object with a null entry. -/
theorem C117_values (env : Env G1 G2 GT) (cd : Codec G1 G2 GT) (sch : Scheme) (w : World G1 G2 GT) (cs : List (Call q G1 G2))
    (call : Call q G1 G2) (h : ¬ WritesNull (run env cd sch w cs) call) :
    (step env cd sch (run env cd sch w cs) call).1 = (valueStep env cd sch (valueRun env cd sch w cs) call).1 :=
  (step_like env cd sch (run_like env cd sch cs w w (.refl w)) call).2.2 h

/-- **C117** Exporting a key or ciphertext one of whose entries is null is undefined, whatever the program did before. -/
theorem C117_null_export (env : Env G1 G2 GT) (cd : Codec G1 G2 GT) (sch : Scheme) (w : World G1 G2 GT) (call : Call q G1 G2)
    (h : WritesNull w call) : (step env cd sch w call).1 = .ub :=
  (step_like env cd sch (.refl w) call).2.1 h

/-- No call of the list reports or raises `OpenABE_ERROR_ELEMENT_NOT_FOUND`, and the keys and ciphertexts it loads hold no
policy element. -/
def AllFound (env : Env G1 G2 GT) (cd : Codec G1 G2 GT) (sch : Scheme) : World G1 G2 GT → List (Call q G1 G2) → Prop
  | _, [] => True
  | w, c :: cs => ReadsClean env cd c ∧ notFound (step env cd sch w c).1 = false ∧
      AllFound env cd sch (step env cd sch w c).2 cs

theorem AllFound.clean (env : Env G1 G2 GT) (cd : Codec G1 G2 GT) (sch : Scheme) : ∀ (cs : List (Call q G1 G2)) (w : World G1 G2 GT),
    Clean w → AllFound env cd sch w cs → Clean (run env cd sch w cs)
  | [], _, h, _ => h
  | c :: cs, _, h, hf => AllFound.clean env cd sch cs _ (step_clean env cd sch c h hf.1 hf.2.1) hf.2.2

/-- **C117 (partial)** As long as no lookup failed and no policy element was loaded, no stored key and no ciphertext has a null
entry, and every call, also every export, gives what it gives on values. Missing: programs in which a lookup failed. -/
theorem C117_exports_partial (env : Env G1 G2 GT) (cd : Codec G1 G2 GT) (sch : Scheme) (w : World G1 G2 GT) (hw : Clean w)
    (cs : List (Call q G1 G2)) (h : AllFound env cd sch w cs) (call : Call q G1 G2) :
    Clean (run env cd sch w cs) ∧
      (step env cd sch (run env cd sch w cs) call).1 = (valueStep env cd sch (valueRun env cd sch w cs) call).1 := by
  have hc := AllFound.clean env cd sch cs w hw h
  exact ⟨hc, C117_values env cd sch w cs call (hc.writes call)⟩

/-! ## Failures that damage keys and ciphertexts -/

theorem getKey_of_sec {ks : KeyStore (Key G1 G2 GT)} {id : Bytes} {key : Key G1 G2 GT} (hp : (ks.getPublicKey id).1 = none)
    (hs : SMap.find id ks.sec = some (some key)) : (ks.getKey id).1 = some key := by
  unfold KeyStore.getKey
  simp only [hp]
  unfold KeyStore.getSecretKey KeyStore.touch KeyStore.getPublicKey
  simp only [hs]

theorem getKey_setSec {ks : KeyStore (Key G1 G2 GT)} {id : Bytes} {key : Key G1 G2 GT} {d : Container G1 G2 GT}
    (hp : (ks.getPublicKey id).1 = none) (hs : SMap.find id ks.sec = some (some key)) :
    ((setSec ks id d).getKey id).1 = some { key with comps := d } := by
  refine getKey_of_sec ?_ ?_
  · rw [← hp]
    unfold Live.setSec
    simp only [hs]
    rfl
  · unfold Live.setSec
    simp only [hs, SMap.find_insert, if_true]

theorem getSecretKey_of {ks : KeyStore (Key G1 G2 GT)} {id : Bytes} {key : Key G1 G2 GT}
    (hs : SMap.find id ks.sec = some (some key)) : ks.getSecretKey id = (some key, ks) := by
  unfold KeyStore.getSecretKey KeyStore.touch
  simp only [hs]

theorem getPublicKey_of {ks : KeyStore (Key G1 G2 GT)} {id : Bytes} {key : Key G1 G2 GT}
    (hs : SMap.find id ks.pub = some (some key)) : ks.getPublicKey id = (some key, ks) := by
  unfold KeyStore.getPublicKey KeyStore.touch
  simp only [hs]

/-- Only null entries. -/
def NoKeys (ks : KeyStore (Key G1 G2 GT)) : Prop := ∀ id x, SMap.find id ks.pub ≠ some (some x) ∧ SMap.find id ks.sec ≠ some (some x)

theorem NoKeys.getKey {ks : KeyStore (Key G1 G2 GT)} (h : NoKeys ks) (id : Bytes) : (ks.getKey id).1 = none ∧ NoKeys (ks.getKey id).2 := by
  have hp : (ks.getPublicKey id).1 = none := by
    cases e : (ks.getPublicKey id).1 with
    | none => rfl
    | some x => exact absurd (find_of_pub e).1 (h id x).1
  have h1 : NoKeys (ks.getPublicKey id).2 := fun j x => ⟨fun e => (h j x).1 (find_touch e), (h j x).2⟩
  have hs : ((ks.getPublicKey id).2.getSecretKey id).1 = none := by
    cases e : ((ks.getPublicKey id).2.getSecretKey id).1 with
    | none => rfl
    | some x => exact absurd (find_of_sec e).1 (h1 id x).2
  unfold KeyStore.getKey
  simp only [hp, hs]
  exact ⟨trivial, fun j x => ⟨(h1 j x).1, fun e => (h1 j x).2 (find_touch e)⟩⟩

/-- Parameter generation in a context without keys. -/
theorem generateParams_noKeys (env : Env G1 G2 GT) (sch : Scheme) (c : Ctx G1 G2 GT) (h : NoKeys c.ks) (mpkID mskID : Bytes)
    (r : ParamRand q G1 G2) : ∃ (ks : KeyStore (Key G1 G2 GT)) (pm : Container G1 G2 GT × Container G1 G2 GT), NoKeys ks ∧
      (match sch with | .cp => cpParams env r | .kp => kpParams env r) = .ok pm ∧
      generateParams env sch c mpkID mskID r = .ok (none, ⟨c.alg, true, (ks.addKey mpkID (newKey c.alg mpkID r.uid1 pm.1) .pub).addKey
        mskID (newKey c.alg mskID r.uid2 pm.2) .sec⟩) := by
  obtain ⟨e1, h1⟩ := h.getKey mpkID
  obtain ⟨e2, h2⟩ := h1.getKey mskID
  unfold generateParams KeyStore.validateNewParamsID
  simp only [e1, e2]
  cases sch
  · exact ⟨_, _, h2, rfl, rfl⟩
  · exact ⟨_, _, h2, rfl, rfl⟩

/-- The first lookup of decryption fails. -/
theorem decrypt_missing (env : Env G1 G2 GT) (sch : Scheme) (c : Ctx G1 G2 GT) (id : Bytes) (key : Key G1 G2 GT)
    (ct : Ciphertext G1 G2 GT) (hs : SMap.find id c.ks.sec = some (some key)) (hi : SMap.find b!"input" key.comps = none) :
    Live.decrypt q env sch c id ct = (.ok (some .elementNotFound, []),
      { c with ks := setSec c.ks id (SMap.insert b!"input" .null key.comps) }, ct) := by
  have hg : Container.getComponent key.comps b!"input" = (.throw .elementNotFound, SMap.insert b!"input" .null key.comps) := by
    unfold Container.getComponent
    rw [hi]
  have hb : plainBody q env sch c (key.comps, ct.comps) =
      (.throw .elementNotFound, (SMap.insert b!"input" .null key.comps, ct.comps)) := by
    cases sch
    · show (Mut.bind (Mut.bind (fst b!"input") _) _) _ = _
      simp only [Mut.bind, fst, hg]
    · show (Mut.bind (Mut.bind (fst b!"input") _) _) _ = _
      simp only [Mut.bind, fst, hg]
  unfold Live.decrypt
  simp only [getSecretKey_of hs, hb, caught]
  rfl

/-- **C117, violated** Decrypting with the id of the master secret key is refused with `OpenABE_ERROR_ELEMENT_NOT_FOUND`, in
both schemes and for every ciphertext. But the lookup of "input" has put a null pointer into the stored master secret key:
exporting it worked before and is undefined afterwards (a virtual call on a null pointer in `OpenABEContainer::serialize`). So one
wrong id makes it impossible to save the master secret key of a running authority. -/
theorem C117_master_key_violated (env : Env G1 G2 GT) (cd : Codec G1 G2 GT) (sch : Scheme) (alg : UInt8)
    (cts : Nat → Ciphertext G1 G2 GT) (mpkID mskID : Bytes) (hid : mskID ≠ mpkID) (r : ParamRand q G1 G2) (j : Nat) :
    let w := run env cd sch ⟨⟨alg, false, {}⟩, cts⟩ [Call.params mpkID mskID r]
    (∃ b, (step env cd sch w (.exportKey mskID : Call q G1 G2)).1 = .ok (.blob (.ok b))) ∧
    (step env cd sch w (.decrypt mskID j : Call q G1 G2)).1 = .ok (.plain (some .elementNotFound) []) ∧
    (step env cd sch (run env cd sch w [(.decrypt mskID j : Call q G1 G2)]) (.exportKey mskID : Call q G1 G2)).1 = .ub := by
  intro w
  have hk : ∃ (msk : Key G1 G2 GT), SMap.find mskID w.ctx.ks.sec = some (some msk) ∧ (w.ctx.ks.getPublicKey mskID).1 = none ∧
      SMap.find b!"input" msk.comps = none ∧ ∀ p ∈ msk.comps, p.2 ≠ .null := by
    obtain ⟨ks, pm, hk, hpm, hg⟩ := generateParams_noKeys env sch (⟨alg, false, {}⟩ : Ctx G1 G2 GT)
      (fun id x => ⟨by simp [SMap.find], by simp [SMap.find]⟩) mpkID mskID r
    have hw : w.ctx = ⟨alg, true, (ks.addKey mpkID (newKey alg mpkID r.uid1 pm.1) .pub).addKey
        mskID (newKey alg mskID r.uid2 pm.2) .sec⟩ := by
      show (step env cd sch _ (Call.params mpkID mskID r)).2.ctx = _
      simp only [step, hg]
    rw [hw]
    refine ⟨newKey alg mskID r.uid2 pm.2, ?_, ?_, ?_, ?_⟩
    · simp only [KeyStore.addKey, SMap.find_insert, if_true]
    · simp only [KeyStore.addKey, KeyStore.getPublicKey, KeyStore.touch, SMap.find_insert, if_neg hid]
      cases e : SMap.find mskID ks.pub with
      | none => rfl
      | some v =>
        cases v with
        | none => rfl
        | some x => exact absurd e (hk mskID x).1
    · cases sch <;> cases hpm <;> rfl
    · cases sch
      · exact (cpParams_noNull env r pm hpm).2
      · exact (kpParams_noNull env r pm hpm).2
  obtain ⟨msk, h1, h2, h3, h4⟩ := hk
  have hd := decrypt_missing (q := q) env sch w.ctx mskID msk (w.cts j) h1 h3
  refine ⟨?_, ?_, ?_⟩
  · have hg := getKey_of_sec h2 h1
    obtain ⟨b, hb⟩ : ∃ b, msk.exportBytes cd = .ok b := by
      rcases serialize_cases cd msk.comps with ⟨⟨p, hp, e⟩, _⟩ | ⟨_, b, hb⟩
      · exact absurd e (h4 p hp)
      · exact ⟨_, by unfold Key.exportBytes; rw [hb]; rfl⟩
    refine ⟨b, ?_⟩
    simp only [step, Live.exportKey, hg, hb]
    rfl
  · simp only [step, hd, mapRes]
  · apply C117_null_export
    refine ⟨{ msk with comps := SMap.insert b!"input" .null msk.comps }, ?_, _, SMap.mem_of_find (k := b!"input") (v := .null) (by
      rw [SMap.find_insert, if_pos rfl]), rfl⟩
    show (((step env cd sch w (.decrypt mskID j : Call q G1 G2)).2.ctx.ks.getKey mskID)).1 = _
    simp only [step, hd]
    exact getKey_setSec h2 h1

/-- The name under which key generation looks up the exponent of the master secret key. -/
def secretName : Scheme → Bytes
  | .cp => b!"alpha"
  | .kp => b!"y"

/-- The lookup of the exponent fails. -/
theorem generateKey_missing (env : Env G1 G2 GT) (sch : Scheme) (c : Ctx G1 G2 GT) (input : FInput) (keyID mpkID id : Bytes)
    (r : Rand q) (mpk key : Key G1 G2 GT) (k : Bytes) (hin : keyInput sch input = true) (hr : c.ready = true)
    (hp : SMap.find mpkID c.ks.pub = some (some mpk)) (hk : SMap.find b!"k" mpk.comps = some (.bytes k))
    (hs : SMap.find id c.ks.sec = some (some key)) (hi : SMap.find (secretName sch) key.comps = none) :
    Live.generateKey env sch c input keyID mpkID id r = (.ok (some .elementNotFound),
      { c with ks := setSec (setPub c.ks mpkID mpk.comps) id (SMap.insert (secretName sch) .null key.comps) }) := by
  have hg : Container.getComponent key.comps (secretName sch) =
      (.throw .elementNotFound, SMap.insert (secretName sch) .null key.comps) := by
    unfold Container.getComponent
    rw [hi]
  have hm : Container.getComponent mpk.comps b!"k" = (.ok (.bytes k), mpk.comps) := by
    unfold Container.getComponent
    rw [hk]
  have hb : keyBody env sch c input r (mpk.comps, key.comps) =
      (.throw .elementNotFound, (mpk.comps, SMap.insert (secretName sch) .null key.comps)) := by
    cases sch <;> cases input <;> simp only [keyInput, reduceCtorEq, Bool.false_eq_true] at hin
    · show (Mut.bind (fst b!"k") _) _ = _
      simp only [Mut.bind, fst, hm]
      show (Mut.bind (lift _) _) _ = _
      simp only [Mut.bind, lift, Container.setComponent, Obj.clone, Res.ok_bind]
      show (Mut.bind (lift _) _) _ = _
      simp only [Mut.bind, lift, usePairing, hr, if_true]
      show (Mut.bind (snd b!"alpha") _) _ = _
      simp only [secretName] at hg
      simp only [Mut.bind, snd, hg, secretName]
    · show (Mut.bind (fst b!"k") _) _ = _
      simp only [Mut.bind, fst, hm]
      show (Mut.bind (lift _) _) _ = _
      simp only [Mut.bind, lift, Container.setComponent, Obj.clone, Res.ok_bind]
      show (Mut.bind (snd b!"y") _) _ = _
      simp only [secretName] at hg
      simp only [Mut.bind, snd, hg, secretName]
  unfold Live.generateKey
  simp only [hin, getPublicKey_of hp, getSecretKey_of hs, hb, caught]
  rfl

/-- **C117, violated** A user's key given by mistake as the master secret key: key generation is refused with
`OpenABE_ERROR_ELEMENT_NOT_FOUND`, but the user's key now has a null entry under the name of the missing exponent, and exporting
it is undefined. For both schemes, every input of the right type, every public key with a hash key and every user key. -/
theorem C117_user_key_violated (env : Env G1 G2 GT) (cd : Codec G1 G2 GT) (sch : Scheme) (w : World G1 G2 GT) (input : FInput)
    (keyID mpkID id : Bytes) (r : Rand q) (mpk key : Key G1 G2 GT) (k : Bytes) (hin : keyInput sch input = true)
    (hr : w.ctx.ready = true) (hp : SMap.find mpkID w.ctx.ks.pub = some (some mpk))
    (hk : SMap.find b!"k" mpk.comps = some (.bytes k)) (hs : SMap.find id w.ctx.ks.sec = some (some key))
    (hi : SMap.find (secretName sch) key.comps = none) (hid : id ≠ mpkID) (hnp : (w.ctx.ks.getPublicKey id).1 = none) :
    (step env cd sch w (.keygen input keyID mpkID id r)).1 = .ok (.code (some .elementNotFound)) ∧
    (step env cd sch (run env cd sch w [.keygen input keyID mpkID id r]) (.exportKey id : Call q G1 G2)).1 = .ub := by
  have hg := generateKey_missing env sch w.ctx input keyID mpkID id r mpk key k hin hr hp hk hs hi
  refine ⟨by simp only [step, hg, mapRes], ?_⟩
  apply C117_null_export
  refine ⟨{ key with comps := SMap.insert (secretName sch) .null key.comps }, ?_, _, SMap.mem_of_find (k := secretName sch)
    (v := .null) (by rw [SMap.find_insert, if_pos rfl]), rfl⟩
  show (((step env cd sch w (.keygen input keyID mpkID id r)).2.ctx.ks.getKey id)).1 = _
  simp only [step, hg]
  refine getKey_setSec ?_ ?_
  · unfold Live.setPub
    simp only [hp]
    rw [← hnp]
    simp only [KeyStore.getPublicKey, KeyStore.touch, SMap.find_insert, if_neg hid]
    cases SMap.find id w.ctx.ks.pub <;> rfl
  · unfold Live.setPub
    simp only [hp]
    exact hs

/-- **C117, violated** The same for ciphertexts: decrypting a ciphertext without its policy (bytes from outside can be such a
ciphertext) is refused, and exporting the ciphertext object afterwards is undefined. -/
theorem C117_ciphertext_violated (env : Env G1 G2 GT) (cd : Codec G1 G2 GT) (w : World G1 G2 GT) (id : Bytes) (key : Key G1 G2 GT)
    (al : AttrList) (j : Nat) (hs : SMap.find id w.ctx.ks.sec = some (some key))
    (hi : SMap.find b!"input" key.comps = some (.attrs al)) (hc : SMap.find b!"policy" (w.cts j).comps = none) :
    (step env cd .cp w (.decrypt id j : Call q G1 G2)).1 = .ok (.plain (some .elementNotFound) []) ∧
    (step env cd .cp (run env cd .cp w [(.decrypt id j : Call q G1 G2)]) (.exportCt j : Call q G1 G2)).1 = .ub := by
  have hg : Container.getComponent key.comps b!"input" = (.ok (.attrs al), key.comps) := by
    unfold Container.getComponent
    rw [hi]
  have hp : Container.getComponent (w.cts j).comps b!"policy" =
      (.throw .elementNotFound, SMap.insert b!"policy" .null (w.cts j).comps) := by
    unfold Container.getComponent
    rw [hc]
  have hb : plainBody q env .cp w.ctx (key.comps, (w.cts j).comps) =
      (.throw .elementNotFound, (key.comps, SMap.insert b!"policy" .null (w.cts j).comps)) := by
    show (Mut.bind (Mut.bind (fst b!"input") _) _) _ = _
    simp only [Mut.bind, fst, hg]
    show (Mut.bind (Mut.bind (snd b!"policy") _) _) _ = _
    simp only [Mut.bind, snd, hp]
  have hd : Live.decrypt q env .cp w.ctx id (w.cts j) = (.ok (some .elementNotFound, []),
      { w.ctx with ks := setSec w.ctx.ks id key.comps },
      { w.cts j with comps := SMap.insert b!"policy" .null (w.cts j).comps }) := by
    unfold Live.decrypt
    simp only [getSecretKey_of hs, hb, caught]
    rfl
  refine ⟨by simp only [step, hd, mapRes], ?_⟩
  apply C117_null_export
  show ∃ p ∈ ((step env cd .cp w (.decrypt id j : Call q G1 G2)).2.cts j).comps, p.2 = .null
  simp only [step, hd, setCt, if_true]
  exact ⟨_, SMap.mem_of_find (k := b!"policy") (v := .null) (by rw [SMap.find_insert, if_pos rfl]), rfl⟩

/-! ### Concrete cases -/

namespace LiveEx
open Cpa.WireEx

/-- An empty context and empty ciphertexts. -/
def w0 : World (ZMod 5) (ZMod 5) (ZMod 5) := ⟨ctx, fun _ => {}⟩

theorem clean0 : Clean w0 where
  keys := ⟨fun id x h => by simp [w0, ctx, SMap.find] at h, fun id x h => by simp [w0, ctx, SMap.find] at h⟩
  cts := fun _ p hp => by simp [w0] at hp

/-- Parameters, a key for `|a|c`, an export of it and a refused decryption with an unknown key. -/
def calls : List (Call 5 (ZMod 5) (ZMod 5)) :=
  [.params b!"mpk" b!"msk" pr,
   .keygen (.attrs { attrs := [b!"a", b!"c"] }) b!"dk" b!"mpk" b!"msk" rnd,
   .exportKey b!"dk", .decrypt b!"nobody" 0]

theorem found : AllFound env codec .cp w0 calls :=
  ⟨trivial, by decide +kernel, trivial, by decide +kernel, trivial, by decide +kernel, trivial, by decide +kernel, trivial⟩

example : (step (q := 5) env codec .cp (run (q := 5) env codec .cp w0 calls) (.exportKey b!"dk" : Call 5 (ZMod 5) (ZMod 5))).1 =
    (valueStep (q := 5) env codec .cp (valueRun env codec .cp w0 calls) (.exportKey b!"dk" : Call 5 (ZMod 5) (ZMod 5))).1 :=
  (C117_exports_partial env codec .cp w0 clean0 calls found _).2

example : (step (q := 5) env codec .kp (run (q := 5) env codec .kp (run (q := 5) env codec .kp w0 [.params b!"mpk" b!"msk" pr]) [.decrypt b!"msk" 7])
    (.exportKey b!"msk" : Call 5 (ZMod 5) (ZMod 5))).1 = .ub :=
  (C117_master_key_violated (q := 5) env codec .kp 101 (fun _ => {}) b!"mpk" b!"msk" (by decide) pr 7).2.2

/-- The context after the calls. -/
def w1 : World (ZMod 5) (ZMod 5) (ZMod 5) := run (q := 5) env codec .cp w0 calls

/-- The keys in it. -/
def mpk1 : Key (ZMod 5) (ZMod 5) (ZMod 5) := (match SMap.find b!"mpk" w1.ctx.ks.pub with | some (some k) => k | _ => Key.new 0 [] none [])
def dk1 : Key (ZMod 5) (ZMod 5) (ZMod 5) := (match SMap.find b!"dk" w1.ctx.ks.sec with | some (some k) => k | _ => Key.new 0 [] none [])

example : (step (q := 5) env codec .cp (run (q := 5) env codec .cp w1 [.keygen (.attrs {}) b!"x" b!"mpk" b!"dk" rnd])
    (.exportKey b!"dk" : Call 5 (ZMod 5) (ZMod 5))).1 = .ub :=
  (C117_user_key_violated (q := 5) env codec .cp w1 (.attrs {}) b!"x" b!"mpk" b!"dk" rnd mpk1 dk1 [1, 2, 3] rfl (by decide +kernel) rfl
    (by rfl) rfl (by rfl) (by decide) (by rfl)).2

example : (step (q := 5) env codec .cp (run (q := 5) env codec .cp w1 [.decrypt b!"dk" 3]) (.exportCt 3 : Call 5 (ZMod 5) (ZMod 5))).1 = .ub :=
  (C117_ciphertext_violated (q := 5) env codec w1 b!"dk" dk1 { attrs := [b!"a", b!"c"] } 3 rfl (by rfl) (by rfl)).2

end LiveEx

end Abe
