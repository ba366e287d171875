import Verif.Model.Scheme
import Verif.Spec.Threads
/-!
# A context used by several threads (schemes/*.cpp, src/abe/zcontextabe.cpp, src/abe/zkeystore.cpp)

Every access to the two maps of the keystore and to the pointer to the pairing object is a step of its own. Keys do
not change once they are in a map (`zeroize` does nothing, see `Verif.Model.Keystore`), so what a thread found there
stays valid; lookups of components that a key does not have, which add null objects to it, are not followed.
Ciphertexts, function inputs and the state of RELIC (`Verif.Model.LibThreads`) belong to the thread. Random values are
arguments.

`strict` says what `operator[]` of a map counts as when it finds something: a change, as in the standard (a function
that is not `const`), or a read, as in the usual implementations.
-/
set_option autoImplicit false
namespace Abe

/-- What threads share: the maps (include/abe/zkeystore.h:49-51) and `m_Pairing_` (include/abe/zcontextabe.h:49-112). -/
inductive CtxObj
  | pub
  | sec
  | pairing
  deriving DecidableEq

/-- The calls of a thread. -/
inductive CtxCall (q : Nat) (G1 G2 GT : Type)
  | setup (mpkID mskID : Bytes) (r : Scheme.ParamRand q G1 G2)
  | keygen (input : FInput) (keyID mpkID mskID : Bytes) (r : Scheme.Rand q)
  | enc (mpkID : Bytes) (input : FInput) (plaintext : Bytes) (r : Scheme.Rand q) (ct : Ciphertext G1 G2 GT)
  | dec (keyID : Bytes) (ct : Ciphertext G1 G2 GT)
  | delete (id : Bytes)
  | check (id : Bytes)

/-- Their results. -/
inductive CtxOut (G1 G2 GT : Type)
  | code (e : Option Err)
  | sealed (r : Except Err (Ciphertext G1 G2 GT))
  | opened (e : Option Err) (plaintext : Bytes)
  | answer (b : Bool)

namespace CtxThreads
open Conc (Prog)
variable {G1 G2 GT : Type} {q : Nat} [Fact q.Prime]
variable [AddCommGroup G1] [Module (ZMod q) G1] [AddCommGroup G2] [Module (ZMod q) G2] [AddCommGroup GT]
  [Module (ZMod q) GT]

/-- Programs over a context. -/
abbrev CtxProg (G1 G2 GT α : Type) := Prog CtxObj (Ctx G1 G2 GT) α

/-- `pubKeys[id]`, read (zkeystore.cpp:124, 164). -/
def lookPub (strict : Bool) (id : Bytes) : CtxProg G1 G2 GT (Option (Key G1 G2 GT)) :=
  let add : CtxProg G1 G2 GT (Option (Key G1 G2 GT)) :=
    .act ⟨.pub, true⟩ (fun c => { c with ks := (c.ks.getPublicKey id).2 }) fun c => .ret (c.ks.getPublicKey id).1
  if strict then add
  else .act ⟨.pub, false⟩ (fun c => c) fun c => match SMap.find id c.ks.pub with
    | some v => .ret v
    | none => add

/-- `secKeys[id]`, read (zkeystore.cpp:129, 183). -/
def lookSec (strict : Bool) (id : Bytes) : CtxProg G1 G2 GT (Option (Key G1 G2 GT)) :=
  let add : CtxProg G1 G2 GT (Option (Key G1 G2 GT)) :=
    .act ⟨.sec, true⟩ (fun c => { c with ks := (c.ks.getSecretKey id).2 }) fun c => .ret (c.ks.getSecretKey id).1
  if strict then add
  else .act ⟨.sec, false⟩ (fun c => c) fun c => match SMap.find id c.ks.sec with
    | some v => .ret v
    | none => add

/-- zkeystore.cpp:120-136 `getKey`. -/
def lookKey (strict : Bool) (id : Bytes) : CtxProg G1 G2 GT (Option (Key G1 G2 GT)) :=
  (lookPub strict id).bind fun k => match k with
    | some k => .ret (some k)
    | none => lookSec strict id

/-- zcontextabe.cpp:68-79 `initializeCurve`. -/
def initCurve : CtxProg G1 G2 GT Unit :=
  .act ⟨.pairing, false⟩ (fun c => c) fun c =>
    if c.ready then .ret () else .act ⟨.pairing, true⟩ (fun c => { c with ready := true }) fun _ => .ret ()

/-- zcontextcpwaters.cpp:84-91, zcontextkpgpsw.cpp:86-93: curve and ids; whether both ids are new. -/
def checks (strict : Bool) (mpkID mskID : Bytes) : CtxProg G1 G2 GT Bool :=
  initCurve.bind fun _ => (lookKey strict mpkID).bind fun a => match a with
    | some _ => .ret false
    | none => (lookKey strict mskID).bind fun b => .ret b.isNone

/-- zcontextcpwaters.cpp:121-122, zcontextkpgpsw.cpp:118-119: both keys are put into the maps. -/
def addBoth (alg : UInt8) (mpkID mskID : Bytes) (uid1 uid2 : Bytes) (pm : Container G1 G2 GT × Container G1 G2 GT) :
    CtxProg G1 G2 GT (Res (CtxOut G1 G2 GT)) :=
  .act ⟨.pub, true⟩ (fun c => { c with ks := c.ks.addKey mpkID (Scheme.newKey alg mpkID uid1 pm.1) .pub }) fun _ =>
    .act ⟨.sec, true⟩ (fun c => { c with ks := c.ks.addKey mskID (Scheme.newKey alg mskID uid2 pm.2) .sec }) fun _ =>
      .ret (.ok (.code none))

/-- zcontextcpwaters.cpp:78-133, zcontextkpgpsw.cpp:80-126 `generateParams`. -/
def setup (strict : Bool) (env : Env G1 G2 GT) (sch : Scheme) (alg : UInt8) (mpkID mskID : Bytes)
    (r : Scheme.ParamRand q G1 G2) : CtxProg G1 G2 GT (Res (CtxOut G1 G2 GT)) :=
  (checks strict mpkID mskID).bind fun new =>
    if new = false then .ret (.ok (.code (some .invalidParamsId)))
    else match (match sch with | .cp => Scheme.cpParams env r | .kp => Scheme.kpParams env r) with
      | .ok pm => addBoth alg mpkID mskID r.uid1 r.uid2 pm
      | .throw e => .ret (.throw e)
      | .ub => .ret .ub
      | .abort => .ret .abort

/-- zcontextcpwaters.cpp:148-209, zcontextkpgpsw.cpp:141-201 `generateDecryptionKey`. -/
def keygen (strict : Bool) (env : Env G1 G2 GT) (sch : Scheme) (alg : UInt8) (input : FInput) (keyID mpkID mskID : Bytes)
    (r : Scheme.Rand q) : CtxProg G1 G2 GT (Res (CtxOut G1 G2 GT)) :=
  let run (body : Key G1 G2 GT → Key G1 G2 GT → Ctx G1 G2 GT → Res (Container G1 G2 GT)) :
      CtxProg G1 G2 GT (Res (CtxOut G1 G2 GT)) :=
    (lookPub strict mpkID).bind fun pk => (lookSec strict mskID).bind fun sk => match pk, sk with
      | some mpk, some msk => .act ⟨.pairing, false⟩ (fun c => c) fun c => match Scheme.caught (body mpk msk c) with
        | .ok (.error e) => .ret (.ok (.code (some e)))
        | .ok (.ok comps) =>
          .act ⟨.sec, true⟩ (fun c => { c with ks := c.ks.addKey keyID (Scheme.newKey alg keyID r.uid comps) .sec }) fun _ =>
            .ret (.ok (.code none))
        | .throw e => .ret (.throw e)
        | .ub => .ret .ub
        | .abort => .ret .abort
      | _, _ => .ret (.ok (.code (some .invalidParams)))
  match sch, input with
  | .cp, .attrs l => run fun mpk msk c => Scheme.cpKeyBody env c mpk msk l r.x
  | .kp, .policy p => run fun mpk msk c => Scheme.kpKeyBody env c mpk msk p r.tape r.r
  | _, _ => .ret (.ok (.code (some .invalidInput)))

/-- zcontextabe.cpp:309-339 `encrypt`, after the master public key was found. -/
def encRest (env : Env G1 G2 GT) (plaintext : Bytes) (body : Res (Bytes × Ciphertext G1 G2 GT)) :
    Res (CtxOut G1 G2 GT) := do
  let res ← Scheme.caught body
  match res with
  | .error e => .ok (.sealed (.error e))
  | .ok (K, ct1) => do
    let x ← BS.xorAssign plaintext (Scheme.hashFromBytes env.md K plaintext.length Scheme.schemeHashPrefix)
    let d ← Container.setComponent ct1.comps b!"_ED" (.bytes x)
    .ok (.sealed (.ok { ct1 with comps := d }))

/-- zcontextabe.cpp:309-339 `encrypt` with zcontextcpwaters.cpp:221-290 or zcontextkpgpsw.cpp:213-271 `encryptKEM`. -/
def enc (strict : Bool) (env : Env G1 G2 GT) (sch : Scheme) (mpkID : Bytes) (input : FInput) (plaintext : Bytes)
    (r : Scheme.Rand q) (ct : Ciphertext G1 G2 GT) : CtxProg G1 G2 GT (Res (CtxOut G1 G2 GT)) :=
  let run (body : Key G1 G2 GT → Ctx G1 G2 GT → Res (Bytes × Ciphertext G1 G2 GT)) :
      CtxProg G1 G2 GT (Res (CtxOut G1 G2 GT)) :=
    (lookPub strict mpkID).bind fun pk => match pk with
      | some mpk => .act ⟨.pairing, false⟩ (fun c => c) fun c => .ret (encRest env plaintext (body mpk c))
      | none => .ret (.ok (.sealed (.error .invalidParams)))
  match sch, input with
  | .cp, .policy p => run fun mpk c => Scheme.cpEncBody env c mpk p Scheme.symKeyBytes r ct
  | .kp, .attrs l => run fun mpk c => Scheme.kpEncBody env c mpk l Scheme.symKeyBytes r ct
  | _, _ => .ret (.ok (.sealed (.error .invalidInput)))

/-- zcontextabe.cpp:352-385 `decrypt`, after the key was found. -/
def decRest (env : Env G1 G2 GT) (ct : Ciphertext G1 G2 GT) (body : Res Bytes) : Res (CtxOut G1 G2 GT) := do
  let res ← Scheme.caught body
  let out ← Scheme.caught (match res with
    | .error e => .throw e
    | .ok K => do
      let ed ← Scheme.getBytes ct.comps b!"_ED"
      let e ← Scheme.notNull ed
      BS.xorAssign e (Scheme.hashFromBytes env.md K e.length Scheme.schemeHashPrefix))
  match out with
  | .error e => .ok (.opened (some e) [])
  | .ok p => .ok (.opened none p)

/-- zcontextabe.cpp:352-385 `decrypt` with zcontextcpwaters.cpp:304-377 or zcontextkpgpsw.cpp:285-354 `decryptKEM`. -/
def dec (q : Nat) [Fact q.Prime] [Module (ZMod q) G1] (strict : Bool) (env : Env G1 G2 GT) (sch : Scheme) (keyID : Bytes)
    (ct : Ciphertext G1 G2 GT) : CtxProg G1 G2 GT (Res (CtxOut G1 G2 GT)) :=
  (lookSec strict keyID).bind fun sk => match sk with
    | none => .ret (decRest env ct (.throw .invalidInput))
    | some key => .act ⟨.pairing, false⟩ (fun c => c) fun c => .ret (decRest env ct (match sch with
      | .cp => Scheme.cpDecBody q env c key.comps ct.comps Scheme.symKeyBytes
      | .kp => Scheme.kpDecBody q env c key.comps ct.comps Scheme.symKeyBytes))

/-- zkeystore.cpp:221-249 `deleteKey`. -/
def delete (strict : Bool) (id : Bytes) : CtxProg G1 G2 GT (Res (CtxOut G1 G2 GT)) :=
  (lookKey strict id).bind fun k => match k with
    | none => .ret (.ok (.code none))
    | some _ =>
      (Prog.check .pub fun c : Ctx G1 G2 GT => (SMap.find id c.ks.pub).isSome).bind fun inPub =>
      (Prog.check .sec fun c : Ctx G1 G2 GT => (SMap.find id c.ks.sec).isSome).bind fun inSec =>
      (if inPub then Prog.change .pub (fun c : Ctx G1 G2 GT => { c with ks := { c.ks with pub := SMap.erase id c.ks.pub } }) fun _ => ()
        else .ret ()).bind fun _ =>
      (if inSec then Prog.change .sec (fun c : Ctx G1 G2 GT => { c with ks := { c.ks with sec := SMap.erase id c.ks.sec } }) fun _ => ()
        else .ret ()).bind fun _ =>
      .ret (.ok (.code (if !inPub && !inSec then some .invalidKey else none)))

/-- A call. `alg` is the algorithm id of the context, which does not change. -/
def prog (strict : Bool) (env : Env G1 G2 GT) (sch : Scheme) (alg : UInt8) :
    CtxCall q G1 G2 GT → CtxProg G1 G2 GT (Res (CtxOut G1 G2 GT))
  | .setup mpkID mskID r => setup strict env sch alg mpkID mskID r
  | .keygen input keyID mpkID mskID r => keygen strict env sch alg input keyID mpkID mskID r
  | .enc mpkID input plaintext r ct => enc strict env sch mpkID input plaintext r ct
  | .dec keyID ct => dec q strict env sch keyID ct
  | .delete id => delete strict id
  | .check id => Prog.check .sec fun c => .ok (.answer (c.ks.checkSecretKey id))

end CtxThreads
end Abe
