import Verif.Proof.CtxThreads
import Verif.Props.Wire
/-!
# One context, several threads (C136)
-/
set_option linter.unusedSimpArgs false
set_option linter.unusedSectionVars false
set_option autoImplicit false
namespace Abe
namespace CtxThreads
open Conc
variable {G1 G2 GT : Type} {q : Nat} [Fact q.Prime]
variable [AddCommGroup G1] [Module (ZMod q) G1] [AddCommGroup G2] [Module (ZMod q) G2] [AddCommGroup GT]
  [Module (ZMod q) GT]

/-- A call by the only thread: the functions of `Verif.Model.Scheme` and `Verif.Model.Keystore`. -/
def single (env : Env G1 G2 GT) (sch : Scheme) (c : Ctx G1 G2 GT) : CtxCall q G1 G2 GT → Res (CtxOut G1 G2 GT × Ctx G1 G2 GT)
  | .setup mpkID mskID r => Scheme.generateParams env sch c mpkID mskID r >>= fun x => .ok (.code x.1, x.2)
  | .keygen input keyID mpkID mskID r =>
    Scheme.generateKey env sch c input keyID mpkID mskID r >>= fun x => .ok (.code x.1, x.2)
  | .enc mpkID input plaintext r ct => Scheme.encrypt env sch c mpkID input plaintext r ct >>= fun x => .ok (.sealed x.1, x.2)
  | .dec keyID ct => Scheme.decrypt q env sch c keyID ct >>= fun x => .ok (.opened x.1 x.2.1, x.2.2)
  | .delete id => .ok (.code (c.ks.deleteKey id).1, { c with ks := (c.ks.deleteKey id).2 })
  | .check id => .ok (.answer (c.ks.checkSecretKey id), c)

/-- Results agree, and so does the context when the call ends. -/
def Agrees (x : Res (CtxOut G1 G2 GT) × Ctx G1 G2 GT) (y : Res (CtxOut G1 G2 GT × Ctx G1 G2 GT)) : Prop :=
  x.1 = (y >>= fun r => .ok r.1) ∧ ∀ o c', y = .ok (o, c') → x.2 = c'

theorem cpParams_ok (env : Env G1 G2 GT) (r : Scheme.ParamRand q G1 G2) : ∃ pm : Container G1 G2 GT × Container G1 G2 GT, Scheme.cpParams env r = .ok pm := ⟨_, rfl⟩
theorem kpParams_ok (env : Env G1 G2 GT) (r : Scheme.ParamRand q G1 G2) : ∃ pm : Container G1 G2 GT × Container G1 G2 GT, Scheme.kpParams env r = .ok pm := ⟨_, rfl⟩

theorem agrees_ok {o : CtxOut G1 G2 GT} {c : Ctx G1 G2 GT} : Agrees (.ok o, c) (.ok (o, c)) :=
  ⟨rfl, fun o' c' h => by simp only [Res.ok.injEq, Prod.mk.injEq] at h; exact h.2⟩

theorem setup_agrees (strict : Bool) (env : Env G1 G2 GT) (sch : Scheme) (c : Ctx G1 G2 GT) (mpkID mskID : Bytes)
    (r : Scheme.ParamRand q G1 G2) :
    Agrees ((setup strict env sch c.alg mpkID mskID r).alone c) (single env sch c (.setup mpkID mskID r)) := by
  obtain ⟨pm, hpm⟩ := cpParams_ok env r
  obtain ⟨pm', hpm'⟩ := kpParams_ok env r
  unfold setup single Scheme.generateParams
  rw [Prog.alone_bind, checks_alone]
  by_cases h1 : (c.ks.validateNewParamsID mpkID).1 = false
  · simp only [h1, if_true, Prog.alone, Res.ok_bind]
    exact agrees_ok
  · simp only [if_neg h1]
    by_cases h2 : ((c.ks.validateNewParamsID mpkID).2.validateNewParamsID mskID).1 = false
    · simp only [h2, if_true, Prog.alone, Res.ok_bind]
      exact agrees_ok
    · simp only [if_neg h2]
      cases sch <;> simp only [hpm, hpm', addBoth, Prog.alone, Res.ok_bind] <;> exact agrees_ok

theorem keygen_agrees (strict : Bool) (env : Env G1 G2 GT) (sch : Scheme) (c : Ctx G1 G2 GT) (input : FInput)
    (keyID mpkID mskID : Bytes) (r : Scheme.Rand q) :
    Agrees ((keygen strict env sch c.alg input keyID mpkID mskID r).alone c)
      (single env sch c (.keygen input keyID mpkID mskID r)) := by
  unfold keygen single Scheme.generateKey
  have hcore : ∀ (body : Key G1 G2 GT → Key G1 G2 GT → Ctx G1 G2 GT → Res (Container G1 G2 GT)),
      (∀ mpk msk ks, body mpk msk { c with ks := ks } = body mpk msk c) →
      Agrees (((lookPub strict mpkID).bind fun pk => (lookSec strict mskID).bind fun sk => match pk, sk with
        | some mpk, some msk => .act ⟨.pairing, false⟩ (fun c => c) fun x => match Scheme.caught (body mpk msk x) with
          | .ok (.error e) => .ret (.ok (.code (some e)))
          | .ok (.ok comps) =>
            .act ⟨.sec, true⟩ (fun x => { x with ks := x.ks.addKey keyID (Scheme.newKey c.alg keyID r.uid comps) .sec }) fun _ =>
              .ret (.ok (.code none))
          | .throw e => .ret (.throw e)
          | .ub => .ret .ub
          | .abort => .ret .abort
        | _, _ => .ret (.ok (.code (some .invalidParams)))).alone c) 
        ((do
          let res ← Scheme.caught (match (c.ks.getPublicKey mpkID).1, ((c.ks.getPublicKey mpkID).2.getSecretKey mskID).1 with
            | some mpk, some msk => body mpk msk c
            | _, _ => .throw .invalidParams)
          match res with
          | .error e => .ok (some e, { c with ks := ((c.ks.getPublicKey mpkID).2.getSecretKey mskID).2 })
          | .ok comps =>
            .ok (none, { c with ks := ((c.ks.getPublicKey mpkID).2.getSecretKey mskID).2.addKey keyID (Scheme.newKey c.alg keyID r.uid comps) .sec })) >>=
          fun x : Option Err × Ctx G1 G2 GT => .ok (.code x.1, x.2)) := by
    intro body hbody
    rw [Prog.alone_bind, lookPub_alone, Prog.alone_bind, lookSec_alone]
    cases h1 : (c.ks.getPublicKey mpkID).1 with
    | none => simp only [Prog.alone, Scheme.caught, Res.ok_bind]; exact agrees_ok
    | some mpk =>
      cases h2 : ((c.ks.getPublicKey mpkID).2.getSecretKey mskID).1 with
      | none => simp only [h2, Prog.alone, Scheme.caught, Res.ok_bind]; exact agrees_ok
      | some msk =>
        simp only [h2, Prog.alone, hbody]
        cases hb : Scheme.caught (body mpk msk c) with
        | ok x => cases x <;> simp only [Prog.alone, Res.ok_bind] <;> exact agrees_ok
        | throw e => exact ⟨rfl, fun o c' h => by cases h⟩
        | ub => exact ⟨rfl, fun o c' h => by cases h⟩
        | abort => exact ⟨rfl, fun o c' h => by cases h⟩
  cases sch with
  | cp => cases input with
    | attrs l => exact hcore (fun mpk msk c => Scheme.cpKeyBody env c mpk msk l r.x) fun mpk msk ks => rfl
    | null => exact agrees_ok
    | policy p => exact agrees_ok
  | kp => cases input with
    | policy p => exact hcore (fun mpk msk c => Scheme.kpKeyBody env c mpk msk p r.tape r.r) fun mpk msk ks => rfl
    | null => exact agrees_ok
    | attrs l => exact agrees_ok

theorem enc_agrees (strict : Bool) (env : Env G1 G2 GT) (sch : Scheme) (c : Ctx G1 G2 GT) (mpkID : Bytes) (input : FInput)
    (plaintext : Bytes) (r : Scheme.Rand q) (ct : Ciphertext G1 G2 GT) :
    Agrees ((enc strict env sch mpkID input plaintext r ct).alone c) (single env sch c (.enc mpkID input plaintext r ct)) := by
  unfold enc single Scheme.encrypt Scheme.encryptKEM
  have hcore : ∀ (body : Key G1 G2 GT → Ctx G1 G2 GT → Res (Bytes × Ciphertext G1 G2 GT)),
      (∀ mpk ks, body mpk { c with ks := ks } = body mpk c) →
      Agrees (((lookPub strict mpkID).bind fun pk => match pk with
        | some mpk => .act ⟨.pairing, false⟩ (fun c => c) fun c => .ret (encRest env plaintext (body mpk c))
        | none => .ret (.ok (.sealed (.error .invalidParams)))).alone c)
        ((do
          let (res, c1) ← (do
            let res ← Scheme.caught (match (c.ks.getPublicKey mpkID).1 with
              | some mpk => body mpk c
              | none => .throw .invalidParams)
            .ok (res, { c with ks := (c.ks.getPublicKey mpkID).2 }))
          match res with
          | .error e => .ok (.error e, c1)
          | .ok (K, ct1) => do
            let mask := Scheme.hashFromBytes env.md K plaintext.length Scheme.schemeHashPrefix
            let z ← BS.xorAssign plaintext mask
            let d ← Container.setComponent ct1.comps b!"_ED" (.bytes z)
            .ok (.ok { ct1 with comps := d }, c1)) >>=
          fun x : Except Err (Ciphertext G1 G2 GT) × Ctx G1 G2 GT => .ok (.sealed x.1, x.2)) := by
    intro body hbody
    rw [Prog.alone_bind, lookPub_alone]
    cases h1 : (c.ks.getPublicKey mpkID).1 with
    | none => simp only [Prog.alone, Scheme.caught, Res.ok_bind]; exact agrees_ok
    | some mpk =>
      simp only [Prog.alone, hbody, encRest]
      cases hb : Scheme.caught (body mpk c) with
      | ok x =>
        cases x with
        | error e => simp only [Res.ok_bind]; exact agrees_ok
        | ok y =>
          simp only [Res.ok_bind]
          cases hx : BS.xorAssign plaintext (Scheme.hashFromBytes env.md y.1 plaintext.length Scheme.schemeHashPrefix) with
          | ok z =>
            simp only [Res.ok_bind]
            cases hs : Container.setComponent y.2.comps b!"_ED" (.bytes z) with
            | ok d => exact agrees_ok
            | throw e => exact ⟨rfl, fun o c' h => by cases h⟩
            | ub => exact ⟨rfl, fun o c' h => by cases h⟩
            | abort => exact ⟨rfl, fun o c' h => by cases h⟩
          | throw e => exact ⟨rfl, fun o c' h => by cases h⟩
          | ub => exact ⟨rfl, fun o c' h => by cases h⟩
          | abort => exact ⟨rfl, fun o c' h => by cases h⟩
      | throw e => exact ⟨rfl, fun o c' h => by cases h⟩
      | ub => exact ⟨rfl, fun o c' h => by cases h⟩
      | abort => exact ⟨rfl, fun o c' h => by cases h⟩
  cases sch with
  | cp => cases input with
    | policy p => exact hcore (fun mpk c => Scheme.cpEncBody env c mpk p Scheme.symKeyBytes r ct) fun mpk ks => rfl
    | null => exact agrees_ok
    | attrs l => exact agrees_ok
  | kp => cases input with
    | attrs l => exact hcore (fun mpk c => Scheme.kpEncBody env c mpk l Scheme.symKeyBytes r ct) fun mpk ks => rfl
    | null => exact agrees_ok
    | policy p => exact agrees_ok

theorem dec_agrees (strict : Bool) (env : Env G1 G2 GT) (sch : Scheme) (c : Ctx G1 G2 GT) (keyID : Bytes) (ct : Ciphertext G1 G2 GT) :
    Agrees ((dec q strict env sch keyID ct).alone c) (single env sch c (.dec keyID ct : CtxCall q G1 G2 GT)) := by
  have fin : ∀ (body : Res Bytes) (c1 : Ctx G1 G2 GT), Agrees (decRest env ct body, c1)
      ((do
        let (res, c2) ← (do
          let res ← Scheme.caught body
          .ok (res, c1))
        let out ← Scheme.caught (match res with
          | .error e => .throw e
          | .ok K => do
            let ed ← Scheme.getBytes ct.comps b!"_ED"
            let enc ← Scheme.notNull ed
            BS.xorAssign enc (Scheme.hashFromBytes env.md K enc.length Scheme.schemeHashPrefix))
        match out with
        | .error e => .ok (some e, [], c2)
        | .ok p => .ok (none, p, c2)) >>= fun x : Option Err × Bytes × Ctx G1 G2 GT => .ok (.opened x.1 x.2.1, x.2.2)) := by
    intro body c1
    unfold decRest
    cases hb : Scheme.caught body with
    | ok res =>
      simp only [Res.ok_bind]
      generalize hm : Scheme.caught (match res with
          | .error e => .throw e
          | .ok K => do
            let ed ← Scheme.getBytes ct.comps b!"_ED"
            let enc ← Scheme.notNull ed
            BS.xorAssign enc (Scheme.hashFromBytes env.md K enc.length Scheme.schemeHashPrefix)) = out
      cases out with
      | ok o => cases o <;> exact agrees_ok
      | throw e => exact ⟨rfl, fun o c' h => by cases h⟩
      | ub => exact ⟨rfl, fun o c' h => by cases h⟩
      | abort => exact ⟨rfl, fun o c' h => by cases h⟩
    | throw e => exact ⟨rfl, fun o c' h => by cases h⟩
    | ub => exact ⟨rfl, fun o c' h => by cases h⟩
    | abort => exact ⟨rfl, fun o c' h => by cases h⟩
  unfold dec single Scheme.decrypt Scheme.decryptKEM
  rw [Prog.alone_bind, lookSec_alone]
  cases h1 : (c.ks.getSecretKey keyID).1 with
  | none =>
    have := fin (.throw .invalidInput) { c with ks := (c.ks.getSecretKey keyID).2 }
    simp only [h1]
    exact this
  | some key =>
    cases sch with
    | cp =>
      have := fin (Scheme.cpDecBody q env c key.comps ct.comps Scheme.symKeyBytes) { c with ks := (c.ks.getSecretKey keyID).2 }
      simp only [h1]
      exact this
    | kp =>
      have := fin (Scheme.kpDecBody q env c key.comps ct.comps Scheme.symKeyBytes) { c with ks := (c.ks.getSecretKey keyID).2 }
      simp only [h1]
      exact this

theorem erase_absent {V : Type} {k : Bytes} : ∀ {m : SMap V}, SMap.find k m = none → SMap.erase k m = m
  | [], _ => rfl
  | (a, v) :: m, h => by
    unfold SMap.find at h
    have hk : k ≠ a := by rintro rfl; simp at h
    rw [if_neg hk] at h
    have ih := erase_absent h
    unfold SMap.erase at ih ⊢
    rw [List.filter_cons, if_pos (by simpa using Ne.symm hk), ih]

theorem delete_agrees (strict : Bool) (env : Env G1 G2 GT) (sch : Scheme) (c : Ctx G1 G2 GT) (id : Bytes) :
    Agrees ((delete strict id).alone c) (single env sch c (.delete id : CtxCall q G1 G2 GT)) := by
  unfold delete single KeyStore.deleteKey
  rw [Prog.alone_bind, lookKey_alone]
  dsimp only
  generalize c.ks.getKey id = r
  obtain ⟨k, pub, sec⟩ := r
  cases k with
  | none => exact agrees_ok (G1 := G1) (G2 := G2) (GT := GT)
  | some k =>
    cases h2 : SMap.find id pub with
    | none =>
      have e2 := erase_absent h2
      cases h3 : SMap.find id sec with
      | none =>
        have e3 := erase_absent h3
        simp [h2, h3, e2, e3, Prog.check, Prog.bind, Prog.alone]
        exact agrees_ok
      | some y =>
        simp [h2, h3, e2, Prog.check, Prog.change, Prog.bind, Prog.alone]
        exact agrees_ok
    | some x =>
      cases h3 : SMap.find id sec with
      | none =>
        have e3 := erase_absent h3
        simp [h2, h3, e3, Prog.check, Prog.change, Prog.bind, Prog.alone]
        exact agrees_ok
      | some y =>
        simp [h2, h3, Prog.check, Prog.change, Prog.bind, Prog.alone]
        exact agrees_ok

/-- **C136** A call by the only thread does what the model of one thread says. -/
theorem C136_programs (strict : Bool) (env : Env G1 G2 GT) (sch : Scheme) (c : Ctx G1 G2 GT) (k : CtxCall q G1 G2 GT) :
    Agrees ((prog strict env sch c.alg k).alone c) (single env sch c k) := by
  cases k with
  | setup mpkID mskID r => exact setup_agrees strict env sch c mpkID mskID r
  | keygen input keyID mpkID mskID r => exact keygen_agrees strict env sch c input keyID mpkID mskID r
  | enc mpkID input plaintext r ct => exact enc_agrees strict env sch c mpkID input plaintext r ct
  | dec keyID ct => exact dec_agrees strict env sch c keyID ct
  | delete id => exact delete_agrees strict env sch c id
  | check id => exact agrees_ok

/-! ### Threads that only use keys -/

/-- A call that needs nothing but keys with an entry in the maps. -/
def Uses (c : Ctx G1 G2 GT) : CtxCall q G1 G2 GT → Prop
  | .enc mpkID .. => (SMap.find mpkID c.ks.pub).isSome
  | .dec keyID _ => (SMap.find keyID c.ks.sec).isSome
  | .check _ => True
  | _ => False

theorem uses_reads (env : Env G1 G2 GT) (sch : Scheme) (c : Ctx G1 G2 GT) {k : CtxCall q G1 G2 GT} (h : Uses c k) :
    Reads c (prog false env sch c.alg k) := by
  have hpub : ∀ id, (SMap.find id c.ks.pub).isSome → Reads c (lookPub false id) := by
    intro id hid
    obtain ⟨v, hv⟩ := Option.isSome_iff_exists.mp hid
    refine ⟨rfl, rfl, ?_⟩
    simp only [hv]; trivial
  have hsec : ∀ id, (SMap.find id c.ks.sec).isSome → Reads c (lookSec false id) := by
    intro id hid
    obtain ⟨v, hv⟩ := Option.isSome_iff_exists.mp hid
    refine ⟨rfl, rfl, ?_⟩
    simp only [hv]; trivial
  cases k with
  | setup => exact h.elim
  | keygen => exact h.elim
  | delete => exact h.elim
  | check id => exact ⟨rfl, rfl, trivial⟩
  | dec keyID ct =>
    refine Reads.bind (hsec _ h) fun a _ => ?_
    cases a with
    | none => trivial
    | some key => exact ⟨rfl, rfl, trivial⟩
  | enc mpkID input plaintext r ct =>
    have hrun : ∀ body : Key G1 G2 GT → Ctx G1 G2 GT → Res (Bytes × Ciphertext G1 G2 GT),
        Reads c ((lookPub false mpkID).bind fun pk => match pk with
          | some mpk => .act ⟨.pairing, false⟩ (fun c => c) fun c => .ret (encRest env plaintext (body mpk c))
          | none => .ret (.ok (.sealed (.error .invalidParams)))) := by
      intro body
      refine Reads.bind (hpub _ h) fun a _ => ?_
      cases a with
      | none => trivial
      | some key => exact ⟨rfl, rfl, trivial⟩
    cases sch with
    | cp => cases input with
      | policy p => exact hrun fun mpk c => Scheme.cpEncBody env c mpk p Scheme.symKeyBytes r ct
      | null => trivial
      | attrs l => trivial
    | kp => cases input with
      | attrs l => exact hrun fun mpk c => Scheme.kpEncBody env c mpk l Scheme.symKeyBytes r ct
      | null => trivial
      | policy p => trivial

/-- **C136 (partial)** Any number of threads can encrypt and decrypt at the same time with one context, in any
interleaving: no data race, the context stays as it is, and every call returns what it returns when no other thread
runs. Missing: maps whose `operator[]` counts as a change, ids without an entry, and calls that put keys into the
context or take them away; for these see the violations. -/
theorem C136_readers_partial (env : Env G1 G2 GT) (sch : Scheme) (c0 : Ctx G1 G2 GT) (todo : Nat → List (CtxCall q G1 G2 GT))
    (hu : ∀ i, ∀ k ∈ todo i, Uses c0 k) {evs : List (Event (CtxCall q G1 G2 GT) (Res (CtxOut G1 G2 GT)))}
    {c : Cfg CtxObj (Ctx G1 G2 GT) (CtxCall q G1 G2 GT) (Res (CtxOut G1 G2 GT))}
    (h : Exec (prog false env sch c0.alg) (start c0 todo) evs c) :
    ¬ Race c ∧ c.st = c0 ∧
      ∀ i, resultsOf i evs <+: (todo i).map fun k => (single env sch c0 k >>= fun r => .ok r.1) := by
  have hr : ∀ i, ∀ k ∈ todo i, Reads c0 (prog false env sch c0.alg k) := fun i k hk => uses_reads env sch c0 (hu i k hk)
  obtain ⟨h1, h2⟩ := readers hr h
  have hs : ∀ k : CtxCall q G1 G2 GT, ((prog false env sch c0.alg k).alone c0).1 = (single env sch c0 k >>= fun r => .ok r.1) :=
    fun k => (C136_programs false env sch c0 k).1
  refine ⟨readers_no_race hr h, h1, fun i => ?_⟩
  rcases h2 i with ⟨past, rest, e1, -, e3⟩ | ⟨past, k, rest, p, e1, -, -, -, e3⟩
  · rw [e3, e1, List.map_append]
    simp only [hs]
    exact List.prefix_append _ _
  · rw [e3, e1, List.map_append]
    simp only [hs]
    exact List.prefix_append _ _

/-! ### A mutex for the context -/

theorem prog_plain (strict : Bool) (env : Env G1 G2 GT) (sch : Scheme) (alg : UInt8) (k : CtxCall q G1 G2 GT) :
    (prog strict env sch alg k).Plain := by
  cases k with
  | setup mpkID mskID r =>
    refine Prog.Plain.bind (checks_plain _ _ _) fun b => ?_
    split
    · trivial
    · split
      · exact fun _ _ => trivial
      · trivial
      · trivial
      · trivial
  | keygen input keyID mpkID mskID r =>
    have hrun : ∀ body : Key G1 G2 GT → Key G1 G2 GT → Ctx G1 G2 GT → Res (Container G1 G2 GT),
        Prog.Plain ((lookPub strict mpkID).bind fun pk => (lookSec strict mskID).bind fun sk => match pk, sk with
          | some mpk, some msk => (.act ⟨.pairing, false⟩ (fun c => c) fun c => match Scheme.caught (body mpk msk c) with
            | .ok (.error e) => .ret (.ok (.code (some e)))
            | .ok (.ok comps) =>
              .act ⟨.sec, true⟩ (fun c => { c with ks := c.ks.addKey keyID (Scheme.newKey alg keyID r.uid comps) .sec }) fun _ =>
                .ret (.ok (.code none))
            | .throw e => .ret (.throw e)
            | .ub => .ret .ub
            | .abort => .ret .abort : CtxProg G1 G2 GT (Res (CtxOut G1 G2 GT)))
          | _, _ => .ret (.ok (.code (some .invalidParams)))) := by
      intro body
      refine Prog.Plain.bind (lookPub_plain _ _) fun a => Prog.Plain.bind (lookSec_plain _ _) fun b => ?_
      cases a with
      | none => trivial
      | some mpk =>
        cases b with
        | none => trivial
        | some msk =>
          intro c
          simp only
          split <;> first | trivial | exact fun _ => trivial
    cases sch with
    | cp => cases input with
      | attrs l => exact hrun fun mpk msk c => Scheme.cpKeyBody env c mpk msk l r.x
      | null => trivial
      | policy p => trivial
    | kp => cases input with
      | policy p => exact hrun fun mpk msk c => Scheme.kpKeyBody env c mpk msk p r.tape r.r
      | null => trivial
      | attrs l => trivial
  | enc mpkID input plaintext r ct =>
    have hrun : ∀ body : Key G1 G2 GT → Ctx G1 G2 GT → Res (Bytes × Ciphertext G1 G2 GT),
        Prog.Plain ((lookPub strict mpkID).bind fun pk => match pk with
          | some mpk => (.act ⟨.pairing, false⟩ (fun c => c) fun c => .ret (encRest env plaintext (body mpk c)) :
              CtxProg G1 G2 GT (Res (CtxOut G1 G2 GT)))
          | none => .ret (.ok (.sealed (.error .invalidParams)))) := by
      intro body
      refine Prog.Plain.bind (lookPub_plain _ _) fun a => ?_
      cases a with
      | none => trivial
      | some key => exact fun _ => trivial
    cases sch with
    | cp => cases input with
      | policy p => exact hrun fun mpk c => Scheme.cpEncBody env c mpk p Scheme.symKeyBytes r ct
      | null => trivial
      | attrs l => trivial
    | kp => cases input with
      | attrs l => exact hrun fun mpk c => Scheme.kpEncBody env c mpk l Scheme.symKeyBytes r ct
      | null => trivial
      | policy p => trivial
  | dec keyID ct =>
    refine Prog.Plain.bind (lookSec_plain _ _) fun a => ?_
    cases a with
    | none => trivial
    | some key => exact fun _ => trivial
  | delete id =>
    refine Prog.Plain.bind (lookKey_plain _ _) fun a => ?_
    cases a with
    | none => trivial
    | some key =>
      refine Prog.Plain.bind (fun _ => trivial) fun b => Prog.Plain.bind (fun _ => trivial) fun b' => ?_
      refine Prog.Plain.bind ?_ fun _ => Prog.Plain.bind ?_ fun _ => trivial
      · cases b
        · trivial
        · exact fun _ => trivial
      · cases b'
        · trivial
        · exact fun _ => trivial
  | check id => exact fun _ => trivial

/-- **C136** What helps: if the callers hold one mutex during every call, any calls of any threads are race free and
linearizable, whatever the maps count as changes, with the calls of a single thread as sequential meaning. -/
theorem C136_mutex (strict : Bool) (env : Env G1 G2 GT) (sch : Scheme) (c0 : Ctx G1 G2 GT)
    (todo : Nat → List (CtxCall q G1 G2 GT)) {evs : List (Event (CtxCall q G1 G2 GT) (Res (CtxOut G1 G2 GT)))}
    {c : Cfg CtxObj (Ctx G1 G2 GT) (CtxCall q G1 G2 GT) (Res (CtxOut G1 G2 GT))}
    (h : Exec (fun k => (prog strict env sch c0.alg k).guarded) (start c0 todo) evs c) :
    ¬ Race c ∧ ∃ L, Linearizable (fun k => (prog strict env sch c0.alg k).alone) c0 evs L := by
  obtain ⟨L, sq, hi⟩ := exec_inv (fun i k hk => ⟨_, prog_plain strict env sch c0.alg k, rfl⟩) h
  refine ⟨hi.no_race, L, ?_⟩
  have := hi.linearizable
  have he : (fun k : CtxCall q G1 G2 GT => (prog strict env sch c0.alg k).guarded.alone) =
      fun k => (prog strict env sch c0.alg k).alone := by
    funext k s; exact Prog.alone_guarded _ _
  rw [he] at this
  exact this

/-! ### What goes wrong -/

/-- An encryption whose input has the right kind. -/
def RightInput : Scheme → FInput → Prop
  | .cp, .policy _ => True
  | .kp, .attrs _ => True
  | _, _ => False

theorem enc_head {strict : Bool} {env : Env G1 G2 GT} {sch : Scheme} {mpkID : Bytes} {input : FInput} {plaintext : Bytes}
    {r : Scheme.Rand q} {ct : Ciphertext G1 G2 GT} (hi : RightInput sch input) :
    ∃ k, enc strict env sch mpkID input plaintext r ct = (lookPub strict mpkID).bind k := by
  cases sch with
  | cp => cases input with
    | policy p => exact ⟨_, rfl⟩
    | null => exact hi.elim
    | attrs l => exact hi.elim
  | kp => cases input with
    | attrs l => exact ⟨_, rfl⟩
    | null => exact hi.elim
    | policy p => exact hi.elim

/-- The code violates C136: the lookup of a key is `operator[]` of a map, which counts as a change of the map in the
standard. So any two encryptions with the same context at the same time are a data race, even with the same key. -/
theorem C136_standard_violated (env : Env G1 G2 GT) (sch : Scheme) (alg : UInt8) (c0 : Ctx G1 G2 GT)
    (todo : Nat → List (CtxCall q G1 G2 GT)) (i j : Nat) (hij : i ≠ j) (mpkID mpkID' : Bytes) (input input' : FInput)
    (hi : RightInput sch input) (hj : RightInput sch input') (pt pt' : Bytes) (r r' : Scheme.Rand q)
    (ct ct' : Ciphertext G1 G2 GT) (ri rj : List (CtxCall q G1 G2 GT)) (h1 : todo i = .enc mpkID input pt r ct :: ri)
    (h2 : todo j = .enc mpkID' input' pt' r' ct' :: rj) :
    ∃ evs c, Exec (prog true env sch alg) (start c0 todo) evs c ∧ Race c := by
  have h0 := Seen.begin (prog true env sch alg) c0 todo i j
  rw [h1, h2] at h0
  obtain ⟨k, hk⟩ := enc_head (strict := true) (env := env) (mpkID := mpkID) (plaintext := pt) (r := r) (ct := ct) hi
  obtain ⟨k', hk'⟩ := enc_head (strict := true) (env := env) (mpkID := mpkID') (plaintext := pt') (r := r') (ct := ct') hj
  have h3 := ((h0.call hij).swap.call hij.symm).swap
  simp only [prog, hk, hk'] at h3
  exact Seen.race (o := .pub) (w := true) (w' := true) h3 hij (.inl rfl)

/-- The code violates C136: an encryption with an id that has no entry adds one, so it races with every other
encryption, also where finding is only a read. -/
theorem C136_unknown_id_violated (env : Env G1 G2 GT) (sch : Scheme) (alg : UInt8) (c0 : Ctx G1 G2 GT)
    (todo : Nat → List (CtxCall q G1 G2 GT)) (i j : Nat) (hij : i ≠ j) (mpkID mpkID' : Bytes)
    (hm : SMap.find mpkID c0.ks.pub = none) (input input' : FInput)
    (hi : RightInput sch input) (hj : RightInput sch input') (pt pt' : Bytes) (r r' : Scheme.Rand q)
    (ct ct' : Ciphertext G1 G2 GT) (ri rj : List (CtxCall q G1 G2 GT)) (h1 : todo i = .enc mpkID input pt r ct :: ri)
    (h2 : todo j = .enc mpkID' input' pt' r' ct' :: rj) :
    ∃ evs c, Exec (prog false env sch alg) (start c0 todo) evs c ∧ Race c := by
  have h0 := Seen.begin (prog false env sch alg) c0 todo i j
  rw [h1, h2] at h0
  obtain ⟨k, hk⟩ := enc_head (strict := false) (env := env) (mpkID := mpkID) (plaintext := pt) (r := r) (ct := ct) hi
  obtain ⟨k', hk'⟩ := enc_head (strict := false) (env := env) (mpkID := mpkID') (plaintext := pt') (r := r') (ct := ct') hj
  have h3 := ((h0.call hij).swap.call hij.symm).swap
  simp only [prog, hk, hk'] at h3
  have h4 := h3.act hij
  simp only [hm] at h4
  exact Seen.race (o := .pub) (w := true) (w' := false) h4 hij (.inl rfl)

/-- The code violates C136: a decryption with an id that has no entry adds one, so it races with every other
decryption, also where finding is only a read. -/
theorem C136_unknown_key_violated (env : Env G1 G2 GT) (sch : Scheme) (alg : UInt8) (c0 : Ctx G1 G2 GT)
    (todo : Nat → List (CtxCall q G1 G2 GT)) (i j : Nat) (hij : i ≠ j) (keyID keyID' : Bytes)
    (hm : SMap.find keyID c0.ks.sec = none) (ct ct' : Ciphertext G1 G2 GT) (ri rj : List (CtxCall q G1 G2 GT))
    (h1 : todo i = .dec keyID ct :: ri) (h2 : todo j = .dec keyID' ct' :: rj) :
    ∃ evs c, Exec (prog false env sch alg) (start c0 todo) evs c ∧ Race c := by
  have h0 := Seen.begin (prog false env sch alg) c0 todo i j
  rw [h1, h2] at h0
  have h3 := ((h0.call hij).swap.call hij.symm).swap
  simp only [prog, dec] at h3
  have h4 := h3.act hij
  simp only [hm] at h4
  exact Seen.race (o := .sec) (w := true) (w' := false) h4 hij (.inl rfl)

/-- The code violates C136: the first two setups with a context, at the same time, both assign the pairing. -/
theorem C136_setup_violated (strict : Bool) (env : Env G1 G2 GT) (sch : Scheme) (alg : UInt8) (c0 : Ctx G1 G2 GT)
    (todo : Nat → List (CtxCall q G1 G2 GT)) (i j : Nat) (hij : i ≠ j) (hm : c0.ready = false)
    (mpkID mskID mpkID' mskID' : Bytes) (r r' : Scheme.ParamRand q G1 G2) (ri rj : List (CtxCall q G1 G2 GT))
    (h1 : todo i = .setup mpkID mskID r :: ri) (h2 : todo j = .setup mpkID' mskID' r' :: rj) :
    ∃ evs c, Exec (prog strict env sch alg) (start c0 todo) evs c ∧ Race c := by
  have h0 := Seen.begin (prog strict env sch alg) c0 todo i j
  rw [h1, h2] at h0
  have h3 := ((h0.call hij).swap.call hij.symm).swap
  simp only [prog, setup, checks, initCurve] at h3
  have h4 := h3.act hij
  simp only [hm] at h4
  exact Seen.race (o := .pairing) (w := true) (w' := false) h4 hij (.inl rfl)

example : SMap.find b!"k" (({ alg := 1 } : Ctx (ZMod 5) (ZMod 5) (ZMod 5)).ks.sec) = none ∧
    ({ alg := 1 } : Ctx (ZMod 5) (ZMod 5) (ZMod 5)).ready = false := ⟨rfl, rfl⟩

/-- The code violates C136: making a key while another thread decrypts with an existing one is a data race. -/
theorem C136_keygen_violated (env : Env G1 G2 GT) (sch : Scheme) (c0 c1 : Ctx G1 G2 GT)
    (todo : Nat → List (CtxCall q G1 G2 GT)) (i j : Nat) (hij : i ≠ j) (input : FInput) (keyID mpkID mskID keyID' : Bytes)
    (r : Scheme.Rand q) (hgood : Scheme.generateKey env sch c0 input keyID mpkID mskID r = .ok (none, c1))
    (ct' : Ciphertext G1 G2 GT) (ri rj : List (CtxCall q G1 G2 GT)) (h1 : todo i = .keygen input keyID mpkID mskID r :: ri)
    (h2 : todo j = .dec keyID' ct' :: rj) :
    ∃ evs c, Exec (prog false env sch c0.alg) (start c0 todo) evs c ∧ Race c := by
  have h0 := Seen.begin (prog false env sch c0.alg) c0 todo i j
  rw [h1, h2] at h0
  have h3 := ((h0.call hij).swap.call hij.symm).swap
  have hrun : ∀ body : Key G1 G2 GT → Key G1 G2 GT → Ctx G1 G2 GT → Res (Container G1 G2 GT),
      (∀ mpk msk ks, body mpk msk { c0 with ks := ks } = body mpk msk c0) →
      (∃ mpk msk comps, (c0.ks.getPublicKey mpkID).1 = some mpk ∧ (c0.ks.getSecretKey mskID).1 = some msk ∧
        Scheme.caught (body mpk msk c0) = .ok (.ok comps)) →
      prog false env sch c0.alg (.keygen input keyID mpkID mskID r) =
        ((lookPub false mpkID).bind fun pk => (lookSec false mskID).bind fun sk => match pk, sk with
          | some mpk, some msk => .act ⟨.pairing, false⟩ (fun c => c) fun c => match Scheme.caught (body mpk msk c) with
            | .ok (.error e) => .ret (.ok (.code (some e)))
            | .ok (.ok comps) =>
              .act ⟨.sec, true⟩ (fun c => { c with ks := c.ks.addKey keyID (Scheme.newKey c0.alg keyID r.uid comps) .sec }) fun _ =>
                .ret (.ok (.code none))
            | .throw e => .ret (.throw e)
            | .ub => .ret .ub
            | .abort => .ret .abort
          | _, _ => .ret (.ok (.code (some .invalidParams)))) →
      ∃ evs c, Exec (prog false env sch c0.alg) (start c0 todo) evs c ∧ Race c := by
    intro body hks ⟨mpk, msk, comps, e1, e2, e3⟩ hp
    rw [hp] at h3
    have h4 := h3.run (lookPub_plain _ _) hij
    rw [lookPub_alone] at h4
    have h5 := h4.run (lookSec_plain _ _) hij
    rw [lookSec_alone] at h5
    have e2' : (KeyStore.getSecretKey (c0.ks.getPublicKey mpkID).2 mskID).1 = some msk := by
      rw [← e2]; rfl
    simp only [e1, e2'] at h5
    have h6 := h5.act hij
    simp only [hks, e3] at h6
    have h7 : ∃ u n, prog false env sch c0.alg (.dec keyID' ct' : CtxCall q G1 G2 GT) = .act ⟨.sec, false⟩ u n := ⟨_, _, rfl⟩
    obtain ⟨u, n, h7⟩ := h7
    rw [h7] at h6
    exact h6.race hij (.inl rfl)
  have hres : ∀ body : Key G1 G2 GT → Key G1 G2 GT → Ctx G1 G2 GT → Res (Container G1 G2 GT),
      (do
        let res ← Scheme.caught (match (c0.ks.getPublicKey mpkID).1, ((c0.ks.getPublicKey mpkID).2.getSecretKey mskID).1 with
            | some mpk, some msk => body mpk msk c0
            | _, _ => .throw .invalidParams)
        match res with
        | .error e => Res.ok (some e, ({ c0 with ks := ((c0.ks.getPublicKey mpkID).2.getSecretKey mskID).2 } : Ctx G1 G2 GT))
        | .ok comps => .ok (none, { c0 with ks := (((c0.ks.getPublicKey mpkID).2.getSecretKey mskID).2).addKey keyID (Scheme.newKey c0.alg keyID r.uid comps) .sec })) =
        .ok (none, c1) →
      ∃ mpk msk comps, (c0.ks.getPublicKey mpkID).1 = some mpk ∧ (c0.ks.getSecretKey mskID).1 = some msk ∧
        Scheme.caught (body mpk msk c0) = .ok (.ok comps) := by
    intro body h
    have e0 : (KeyStore.getSecretKey (c0.ks.getPublicKey mpkID).2 mskID).1 = (c0.ks.getSecretKey mskID).1 := rfl
    rw [e0] at h
    cases e1 : (c0.ks.getPublicKey mpkID).1 with
    | none => rw [e1] at h; simp [Scheme.caught, Res.ok_bind] at h
    | some mpk =>
      cases e2 : (c0.ks.getSecretKey mskID).1 with
      | none => rw [e1, e2] at h; simp [Scheme.caught, Res.ok_bind] at h
      | some msk =>
        rw [e1, e2] at h
        simp only at h
        cases e3 : Scheme.caught (body mpk msk c0) with
        | ok y =>
          cases y with
          | ok comps => exact ⟨mpk, msk, comps, rfl, rfl, e3⟩
          | error e => rw [e3] at h; simp [Res.ok_bind] at h
        | throw e => rw [e3] at h; cases h
        | ub => rw [e3] at h; cases h
        | abort => rw [e3] at h; cases h
  cases sch with
  | cp => cases input with
    | attrs l => exact hrun (fun mpk msk c => Scheme.cpKeyBody env c mpk msk l r.x) (fun _ _ _ => rfl) (hres (fun mpk msk c => Scheme.cpKeyBody env c mpk msk l r.x) hgood) rfl
    | null => cases hgood
    | policy p => cases hgood
  | kp => cases input with
    | policy p => exact hrun (fun mpk msk c => Scheme.kpKeyBody env c mpk msk p r.tape r.r) (fun _ _ _ => rfl) (hres (fun mpk msk c => Scheme.kpKeyBody env c mpk msk p r.tape r.r) hgood) rfl
    | null => cases hgood
    | attrs l => cases hgood

/-- The components of new parameters: public, secret. -/
def newParams (env : Env G1 G2 GT) (sch : Scheme) (r : Scheme.ParamRand q G1 G2) : Res (Container G1 G2 GT × Container G1 G2 GT) :=
  match sch with
  | .cp => Scheme.cpParams env r
  | .kp => Scheme.kpParams env r

theorem setup_eq {strict : Bool} {env : Env G1 G2 GT} {sch : Scheme} {alg : UInt8} {mpkID mskID : Bytes}
    {r : Scheme.ParamRand q G1 G2} {pm : Container G1 G2 GT × Container G1 G2 GT}
    (h : newParams env sch r = .ok pm) :
    setup strict env sch alg mpkID mskID r = (checks strict mpkID mskID).bind fun new =>
      if new = false then .ret (.ok (.code (some .invalidParamsId))) else addBoth alg mpkID mskID r.uid1 r.uid2 pm := by
  cases sch <;> simp only [newParams] at h <;> simp only [setup, h]

/-- The code violates C136: two threads that generate parameters under the same ids at the same time can both succeed,
even if every access to the maps were atomic, and then the context holds the public parameters of one and the master
secret key of the other. A single thread would be refused the second time. -/
theorem C136_mixed_params_violated (strict : Bool) (env : Env G1 G2 GT) (sch : Scheme) (c0 c1 : Ctx G1 G2 GT)
    (todo : Nat → List (CtxCall q G1 G2 GT)) (i j : Nat) (hij : i ≠ j) (mpkID mskID : Bytes)
    (r r' : Scheme.ParamRand q G1 G2) (hgood : Scheme.generateParams env sch c0 mpkID mskID r = .ok (none, c1))
    (ri rj : List (CtxCall q G1 G2 GT)) (h1 : todo i = .setup mpkID mskID r :: ri) (h2 : todo j = .setup mpkID mskID r' :: rj) :
    (∃ c2, Scheme.generateParams env sch c1 mpkID mskID r' = .ok (some .invalidParamsId, c2)) ∧
    ∃ pm pm' evs c, newParams env sch r = .ok pm ∧
      newParams env sch r' = .ok pm' ∧
      Exec (prog strict env sch c0.alg) (start c0 todo) evs c ∧
      resultsOf i evs = [.ok (.code none)] ∧ resultsOf j evs = [.ok (.code none)] ∧
      SMap.find mpkID c.st.ks.pub = some (some (Scheme.newKey c0.alg mpkID r'.uid1 pm'.1)) ∧
      SMap.find mskID c.st.ks.sec = some (some (Scheme.newKey c0.alg mskID r.uid2 pm.2)) := by
  obtain ⟨pm, hpm⟩ : ∃ pm, newParams env sch r =
      (Res.ok pm : Res (Container G1 G2 GT × Container G1 G2 GT)) := by cases sch <;> exact ⟨_, rfl⟩
  obtain ⟨pm', hpm'⟩ : ∃ pm, newParams env sch r' =
      (Res.ok pm : Res (Container G1 G2 GT × Container G1 G2 GT)) := by cases sch <;> exact ⟨_, rfl⟩
  obtain ⟨-, mpk, -, hmpk, -, -⟩ := Scheme.generateParams_ok hgood
  unfold Scheme.generateParams at hgood
  by_cases v1 : (c0.ks.validateNewParamsID mpkID).1 = false
  · simp [v1] at hgood
  by_cases v2 : ((c0.ks.validateNewParamsID mpkID).2.validateNewParamsID mskID).1 = false
  · simp [v1, v2] at hgood
  refine ⟨?_, pm, pm', ?_⟩
  · have hn : (c1.ks.validateNewParamsID mpkID).1 = false := by
      have h := (Cpa.validate_spec c1.ks mpkID).1
      have hp : (c1.ks.getPublicKey mpkID).1 ≠ none := by
        rw [hmpk]; simp
      cases hb : (c1.ks.validateNewParamsID mpkID).1 with
      | false => rfl
      | true => exact absurd (h.1 hb).1 hp
    exact ⟨_, by unfold Scheme.generateParams; rw [if_pos hn]⟩
  · have h0 := Seen.begin (prog strict env sch c0.alg) c0 todo i j
    rw [h1, h2] at h0
    have h3 := ((h0.call hij).swap.call hij.symm).swap
    simp only [prog, setup_eq hpm, setup_eq hpm'] at h3
    have h4 := h3.run (checks_plain _ _ _) hij
    have a1 : (checks strict mpkID mskID).alone c0 =
        (true, { c0 with ready := true, ks := ((c0.ks.validateNewParamsID mpkID).2.validateNewParamsID mskID).2 }) := by
      rw [checks_alone]
      simp only [if_neg v1]
      simp only [Bool.not_eq_false] at v2
      rw [v2]
    rw [a1] at h4
    have s0 := Cpa.validate_spec c0.ks
    have s1 := Cpa.validate_spec (c0.ks.validateNewParamsID mpkID).2
    have s2 := Cpa.validate_spec ((c0.ks.validateNewParamsID mpkID).2.validateNewParamsID mskID).2
    generalize hk : ((c0.ks.validateNewParamsID mpkID).2.validateNewParamsID mskID).2 = k2 at *
    have w1 : (k2.validateNewParamsID mpkID).1 = true := by
      refine ((s2 mpkID).1).2 ?_
      have a := (s1 mskID).2 mpkID
      have b := (s0 mpkID).2 mpkID
      have d := (s0 mpkID).1.1 (by simpa using v1)
      rw [hk] at a
      rw [a.1, a.2, b.1, b.2]; exact d
    have w2 : ((k2.validateNewParamsID mpkID).2.validateNewParamsID mskID).1 = true := by
      refine ((Cpa.validate_spec _ mskID).1).2 ?_
      have a := (s1 mskID).2 mskID
      have b := (s2 mpkID).2 mskID
      have d := (s1 mskID).1.1 (by simpa using v2)
      rw [hk] at a
      rw [b.1, b.2, a.1, a.2]; exact d
    have h5 := h4.swap.run (checks_plain _ _ _) hij.symm
    have a2 : (checks strict mpkID mskID).alone { c0 with ready := true, ks := k2 } =
        (true, { c0 with ready := true, ks := ((k2.validateNewParamsID mpkID).2.validateNewParamsID mskID).2 }) := by
      rw [checks_alone]
      simp only [w1, w2, Bool.true_eq_false, if_false]
    rw [a2] at h5
    simp only [Bool.true_eq_false, if_false, addBoth] at h5
    have b1 := h5.swap.act hij
    have b2 := b1.swap.act hij.symm
    have b3 := b2.act hij.symm
    have h6 := b3.swap.act hij
    obtain ⟨evs, c, g1, g2, g3, g4, -, -⟩ := ((h6.done hij).swap.done hij.symm).swap
    refine ⟨evs, c, hpm, hpm', g1, g2, g3, ?_, ?_⟩
    · rw [g4]; simp [KeyStore.addKey, SMap.find_insert]
    · rw [g4]; simp [KeyStore.addKey, SMap.find_insert]

/-! ### A concrete case -/

/-- Parameters, made in a new context. -/
theorem toy_params (S : StdSort) (sch : Scheme) (pr : Scheme.ParamRand 5 (ZMod 5) (ZMod 5)) :
    ∃ c1, Scheme.generateParams (Scheme.Toy.env Scheme.Toy.mk0 S) sch (⟨101, false, {}⟩ : Ctx (ZMod 5) (ZMod 5) (ZMod 5))
      b!"mpk" b!"msk" pr = .ok (none, c1) ∧ (SMap.find b!"mpk" c1.ks.pub).isSome := by
  cases sch <;> exact ⟨_, rfl, rfl⟩

/-- The hypotheses of C136_readers_partial are met by two threads that encrypt under parameters made before, those of
C136_unknown_id_violated by two threads that encrypt without parameters. -/
example (S : StdSort) (sch : Scheme) (pr : Scheme.ParamRand 5 (ZMod 5) (ZMod 5)) (r : Scheme.Rand 5)
    (ct : Ciphertext (ZMod 5) (ZMod 5) (ZMod 5)) (p : Policy) (l : AttrList) :
    (∃ c1, Scheme.generateParams (Scheme.Toy.env Scheme.Toy.mk0 S) sch (⟨101, false, {}⟩ : Ctx (ZMod 5) (ZMod 5) (ZMod 5))
      b!"mpk" b!"msk" pr = .ok (none, c1) ∧
      ∀ i, ∀ k ∈ (fun i : Nat => if i < 2 then [CtxCall.enc b!"mpk" (.policy p) [1, 2] r ct, .check b!"k"] else []) i, Uses c1 k) ∧
    SMap.find b!"mpk" (⟨101, false, {}⟩ : Ctx (ZMod 5) (ZMod 5) (ZMod 5)).ks.pub = none ∧
    RightInput sch (match sch with | .cp => .policy p | .kp => .attrs l) := by
  obtain ⟨c1, h1, h2⟩ := toy_params S sch pr
  refine ⟨⟨c1, h1, ?_⟩, rfl, by cases sch <;> trivial⟩
  intro i k hk
  simp only at hk
  split at hk
  · simp only [List.mem_cons, List.not_mem_nil, or_false] at hk
    rcases hk with rfl | rfl
    · exact h2
    · trivial
  · cases hk

/-- The hypotheses of C136_keygen_violated are met after parameters have been made. -/
example (S : StdSort) (pr : Scheme.ParamRand 5 (ZMod 5) (ZMod 5)) (r : Scheme.Rand 5) :
    ∃ c0 c1, Scheme.generateKey (Scheme.Toy.env Scheme.Toy.mk0 S) .cp (c0 : Ctx (ZMod 5) (ZMod 5) (ZMod 5)) (.attrs ⟨[b!"a"], [], []⟩)
      b!"key" b!"mpk" b!"msk" r = .ok (none, c1) := by
  obtain ⟨c1, h1, -⟩ := toy_params S .cp pr
  refine ⟨c1, ?_⟩
  cases h1
  exact ⟨_, rfl⟩

end CtxThreads
end Abe
