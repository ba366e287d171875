import Verif.Model.LSSS
import Verif.Model.Parser
import Verif.Model.Container
import Verif.Model.Keystore
import Mathlib.Algebra.Field.ZMod
/-!
# The two attribute based schemes and the CPA wrapper

schemes/zcontextcpwaters.cpp, schemes/zcontextkpgpsw.cpp, src/abe/zcontextabe.cpp and the helpers they use
from src/abe/zpairing.cpp, src/abe/zkdf.cpp and src/abe/zsymkey.cpp.

* The three groups are modules over the field of prime order `q`, written additively (also `GT`: `exp` is `•`,
  `*` is `+`, `/` is `-`). Pairing, hash function, map to the curve, key derivation and the binary format of
  `GT` are parameters (`Env`); what is assumed about them is stated by each theorem.
* Random values are arguments: `x` for the value drawn first, `tape` for the draws of the secret sharing and
  `r i` for the value drawn for the `i`-th row.
* The output key object is not null (`ASSERT_NOTNULL(key)`); the CPA wrapper always passes a new one.
* `catch (OpenABE_ERROR &)` turns a raised error code into the returned code; standard exceptions pass
  through. The contents of the ciphertext after an error are not modelled, nor the null entries that failing
  component lookups leave behind in keys and ciphertexts (those are in `Container.getComponent`;
  `Model/SchemeObjects` has them, and C117 relates the two).
-/
set_option autoImplicit false
namespace Abe

/-- What the schemes take from outside /repo, with `createPolicyTree`'s `mktime` and the library sort used by the
secret sharing. -/
structure Env (G1 G2 GT : Type) where
  mktime : Mktime
  sort : StdSort
  /-- the assertions of zlsss.cpp are compiled out -/
  ndebug : Bool := false
  /-- `pc_map` (zpairing.cpp:189-195) -/
  e : G1 → G2 → GT
  /-- `_hash_to_bytes_`, `md_map` -/
  md : Bytes → Bytes
  /-- `g1_map` on a digest (zpairing.cpp:185) -/
  g1map : Bytes → G1
  /-- `gt_write_bin` -/
  wT : GT → Bytes
  /-- `md_kdf` (zkdf.cpp:146): the bytes derived from a key, first argument the number -/
  kdf : Nat → Bytes → Bytes

/-- The two schemes. -/
inductive Scheme
  | cp
  | kp
  deriving DecidableEq, Repr

/-- `OpenABEFunctionInput *`. -/
inductive FInput
  | null
  | attrs (l : AttrList)
  | policy (p : Policy)

/-- `OpenABEContextABE` (include/abe/zcontext.h:49-73, zcontextabe.h:48): algorithm id, whether the pairing object exists, keystore. -/
structure Ctx (G1 G2 GT : Type) where
  alg : UInt8
  ready : Bool := false
  ks : KeyStore (Key G1 G2 GT) := {}

namespace Scheme

/-- zcontainer.h:83 `OpenABEMakeElementLabel`. -/
def elementLabel (base u : Bytes) : Bytes := base ++ b!"_" ++ u

/-- zkdf.cpp:179-190 `OpenABEHashKey`. -/
def hashKey (md : Bytes → Bytes) (attr : Bytes) : Bytes :=
  if 16 < attr.length then BS.toLowerHex ((md attr).take 8) else attr

variable {G1 G2 GT : Type}

/-- zpairing.cpp:172-187 `hashToG1`. -/
def hashToG1 (env : Env G1 G2 GT) (k msg : Bytes) : G1 := env.g1map (env.md (k ++ msg))

/-- zsymkey.cpp:151-163 `hashToSymmetricKey`, zelement_bp.cpp:775-783 `GT::hashToBytes`, zkdf.cpp:137-149
`ComputeKDF2` (the digest is never empty), zsymkey.cpp:172-179 `setSymmetricKey`. -/
def symKeyOf (env : Env G1 G2 GT) (x : GT) (len : Nat) : Res Bytes :=
  let h := env.md (groupSerialize 0xB4 (env.wT x))
  if len = 0 then .throw .invalidInput
  else if len ≠ 16 ∧ len ≠ 32 then .throw .invalidLength
  else .ok (env.kdf len h)

/-- zpairing.cpp:235-264 `hashFromBytes`: block `i` is `H(count ‖ prefix ‖ buf)` with an 8 bit counter. -/
def maskBlock (md : Bytes → Bytes) (pre : UInt8) (buf : Bytes) (i : Nat) : Bytes :=
  md (UInt8.ofNat i :: pre :: buf)

/-- zpairing.cpp:235-264 `hashFromBytes`. The digest length is 32; the size computations in `double` and `int` and the
stack array are in `Verif.Model.MaskSize`. -/
def hashFromBytes (md : Bytes → Bytes) (buf : Bytes) (target : Nat) (pre : UInt8) : Bytes :=
  ((List.range ((target + 31) / 32)).flatMap (maskBlock md pre buf)).take target

/-- `SCHEME_HASH_FUNCTION` (include/abe/zabe.h:32). -/
def schemeHashPrefix : UInt8 := 0x2A

/-- `catch (OpenABE_ERROR &err) { result = err; }`. -/
def caught {α : Type} : Res α → Res (Except Err α)
  | .ok a => .ok (.ok a)
  | .throw .outOfRange => .throw .outOfRange
  | .throw .runtimeError => .throw .runtimeError
  | .throw e => .ok (.error e)
  | .ub => .ub
  | .abort => .abort

/-- zcontainer.h:69-75, the typed accessors: `dynamic_cast` of `getComponent`. -/
def getZP (c : Container G1 G2 GT) (name : Bytes) : Res (Option Nat) := do
  let o ← (Container.getComponent c name).1
  .ok (match o with | .zp v => some v | _ => none)
/-- zcontainer.h:70. -/
def getG1 (c : Container G1 G2 GT) (name : Bytes) : Res (Option G1) := do
  let o ← (Container.getComponent c name).1
  .ok (match o with | .g1 v => some v | _ => none)
/-- zcontainer.h:71. -/
def getG2 (c : Container G1 G2 GT) (name : Bytes) : Res (Option G2) := do
  let o ← (Container.getComponent c name).1
  .ok (match o with | .g2 v => some v | _ => none)
/-- zcontainer.h:72. -/
def getGT (c : Container G1 G2 GT) (name : Bytes) : Res (Option GT) := do
  let o ← (Container.getComponent c name).1
  .ok (match o with | .gt v => some v | _ => none)
/-- zcontainer.h:74. -/
def getBytes (c : Container G1 G2 GT) (name : Bytes) : Res (Option Bytes) := do
  let o ← (Container.getComponent c name).1
  .ok (match o with | .bytes v => some v | _ => none)

/-- `*ptr`. -/
def deref {α : Type} : Option α → Res α
  | some a => .ok a
  | none => .ub

/-- `ASSERT_NOTNULL(ptr)` (include/lsss/zconstants.h:99). -/
def notNull {α : Type} : Option α → Res α
  | some a => .ok a
  | none => .throw .invalidInput

/-- A C-style cast of a component to `OpenABEAttributeList *`, then used: any other type is undefined
(zcontextcpwaters.cpp:320, zcontextkpgpsw.cpp:303-304). -/
def castAttrs : Obj G1 G2 GT → Res AttrList
  | .attrs l => .ok l
  | _ => .ub

/-- `this->getPairing()->`: a null pointer before `initializeCurve`. -/
def usePairing (c : Ctx G1 G2 GT) : Res Unit := if c.ready then .ok () else .ub

variable {q : Nat} [Fact q.Prime]
variable [AddCommGroup G1] [Module (ZMod q) G1] [AddCommGroup G2] [Module (ZMod q) G2] [AddCommGroup GT]
  [Module (ZMod q) GT]

/-- zpairing.cpp:197-217 `multi_pairing`. -/
def multiPairing (env : Env G1 G2 GT) (l : List (G1 × G2)) : Res GT :=
  if l.length = 0 then .throw .invalidLength
  else .ok ((l.map fun p => env.e p.1 p.2).sum)

/-- A new `OpenABEKey` (zkey.cpp:69-87) with the components it is given afterwards. -/
def newKey (alg : UInt8) (id uid : Bytes) (comps : Container G1 G2 GT) : Key G1 G2 GT :=
  { (Key.new alg id none uid : Key G1 G2 GT) with comps := comps }

/-! ## Parameter generation -/

/-- The values drawn by `generateParams`: two generators, two exponents (the second unused in the key-policy
scheme), the hash key and the two random uids. -/
structure ParamRand (q : Nat) (G1 G2 : Type) where
  g1 : G1
  g2 : G2
  alpha : ZMod q
  a : ZMod q
  k : Bytes
  uid1 : Bytes
  uid2 : Bytes

/-- zcontextcpwaters.cpp:94-118: the components of both keys. -/
def cpParams (env : Env G1 G2 GT) (r : ParamRand q G1 G2) : Res (Container G1 G2 GT × Container G1 G2 GT) := do
  let g1a := r.a • r.g1
  let g2a := r.a • r.g2
  let A := r.alpha • env.e r.g1 r.g2
  let p ← Container.setComponent [] b!"g1" (.g1 r.g1)
  let p ← Container.setComponent p b!"g2" (.g2 r.g2)
  let p ← Container.setComponent p b!"g1a" (.g1 g1a)
  let p ← Container.setComponent p b!"A" (.gt A)
  let p ← Container.setComponent p b!"k" (.bytes r.k)
  let m ← Container.setComponent [] b!"alpha" (.zp r.alpha.val)
  let m ← Container.setComponent m b!"g2a" (.g2 g2a)
  .ok (p, m)

/-- zcontextkpgpsw.cpp:96-115. -/
def kpParams (env : Env G1 G2 GT) (r : ParamRand q G1 G2) : Res (Container G1 G2 GT × Container G1 G2 GT) := do
  let Y := r.alpha • env.e r.g1 r.g2
  let p ← Container.setComponent [] b!"g1" (.g1 r.g1)
  let p ← Container.setComponent p b!"g2" (.g2 r.g2)
  let p ← Container.setComponent p b!"Y" (.gt Y)
  let p ← Container.setComponent p b!"k" (.bytes r.k)
  let m ← Container.setComponent [] b!"y" (.zp r.alpha.val)
  .ok (p, m)

/-- zcontextcpwaters.cpp:78-133, zcontextkpgpsw.cpp:80-126 `generateParams`: the code (`none`: no error) and the
context afterwards. The second id is only validated when the first is new. -/
def generateParams (env : Env G1 G2 GT) (sch : Scheme) (c : Ctx G1 G2 GT) (mpkID mskID : Bytes)
    (r : ParamRand q G1 G2) : Res (Option Err × Ctx G1 G2 GT) := do
  let v1 := c.ks.validateNewParamsID mpkID
  if v1.1 = false then .ok (some .invalidParamsId, { c with ready := true, ks := v1.2 })
  else
    let v2 := v1.2.validateNewParamsID mskID
    if v2.1 = false then .ok (some .invalidParamsId, { c with ready := true, ks := v2.2 })
    else do
      let pm ← match sch with
        | .cp => cpParams env r
        | .kp => kpParams env r
      let ks := v2.2.addKey mpkID (newKey c.alg mpkID r.uid1 pm.1) .pub
      .ok (none, { c with ready := true, ks := ks.addKey mskID (newKey c.alg mskID r.uid2 pm.2) .sec })

/-! ## Keys -/

/-- zcontextcpwaters.cpp:190-196, the loop over the attributes. -/
def cpKeyLoop (env : Env G1 G2 GT) (k : Option Bytes) (t : ZMod q) : List Bytes → Container G1 G2 GT →
    Res (Container G1 G2 GT)
  | [], d => .ok d
  | a :: as, d => do
    let kb ← deref k
    let kx := t • hashToG1 env kb a
    let d ← Container.setComponent d (elementLabel b!"KX" (hashKey env.md a)) (.g1 kx)
    cpKeyLoop env k t as d

/-- zcontextcpwaters.cpp:167-196: the components of the decryption key. -/
def cpKeyBody (env : Env G1 G2 GT) (c : Ctx G1 G2 GT) (mpk msk : Key G1 G2 GT) (l : AttrList) (t : ZMod q) :
    Res (Container G1 G2 GT) := do
  let k ← getBytes mpk.comps b!"k"
  let d ← Container.setComponent [] b!"input" (.attrs l)
  usePairing c
  let alpha ← deref (← getZP msk.comps b!"alpha")
  let g2 ← deref (← getG2 mpk.comps b!"g2")
  let g2a ← deref (← getG2 msk.comps b!"g2a")
  let K := (alpha : ZMod q) • g2 + t • g2a
  let d ← Container.setComponent d b!"K" (.g2 K)
  let g2' ← deref (← getG2 mpk.comps b!"g2")
  let L := t • g2'
  let d ← Container.setComponent d b!"L" (.g2 L)
  cpKeyLoop env k t l.attrs d

/-- zcontextkpgpsw.cpp:178-190, the loop over the shares; `i` counts the rows. -/
def kpKeyLoop (env : Env G1 G2 GT) (mpk : Key G1 G2 GT) (k : Option Bytes) (r : Nat → ZMod q) :
    Nat → List (Bytes × (Bytes × ZMod q)) → Container G1 G2 GT → Res (Container G1 G2 GT)
  | _, [], d => .ok d
  | i, row :: rows, d => do
    let g1 ← deref (← getG1 mpk.comps b!"g1")
    let kb ← deref k
    let Di := row.2.2 • g1 + r i • hashToG1 env kb row.2.1
    let g2 ← deref (← getG2 mpk.comps b!"g2")
    let di := r i • g2
    let key := hashKey env.md row.1
    let d ← Container.setComponent d (elementLabel b!"D" key) (.g1 Di)
    let d ← Container.setComponent d (elementLabel b!"d" key) (.g2 di)
    kpKeyLoop env mpk k r (i + 1) rows d

/-- zcontextkpgpsw.cpp:161-190. -/
def kpKeyBody (env : Env G1 G2 GT) (c : Ctx G1 G2 GT) (mpk msk : Key G1 G2 GT) (p : Policy)
    (tape r : Nat → ZMod q) : Res (Container G1 G2 GT) := do
  let k ← getBytes mpk.comps b!"k"
  let d ← Container.setComponent [] b!"input" (.bytes p.compact)
  let y ← deref (← getZP msk.comps b!"y")
  let (sh, _) ← shareSecret env.ndebug {} (some p) (y : ZMod q) tape
  match sh.results with
  | [] => .ok d
  | rows => do
    usePairing c
    kpKeyLoop env mpk k r 0 rows d

/-- The values drawn by key generation and encapsulation. -/
structure Rand (q : Nat) where
  /-- zcontextcpwaters.cpp:174, 249, zcontextkpgpsw.cpp:238 -/
  x : ZMod q
  /-- the draws of `shareSecret` -/
  tape : Nat → ZMod q
  /-- one draw for each row -/
  r : Nat → ZMod q
  /-- the uid of a new key -/
  uid : Bytes

/-- zcontextcpwaters.cpp:148-209, zcontextkpgpsw.cpp:141-201 `generateDecryptionKey`: the code (`none`: no error) and
the context afterwards. The master keys are looked up (and null entries made) before anything else can fail. -/
def generateKey (env : Env G1 G2 GT) (sch : Scheme) (c : Ctx G1 G2 GT) (input : FInput) (keyID mpkID mskID : Bytes)
    (r : Rand q) : Res (Option Err × Ctx G1 G2 GT) := do
  let good := match sch, input with
    | .cp, .attrs _ => true
    | .kp, .policy _ => true
    | _, _ => false
  if good = false then .ok (some .invalidInput, c)
  else
    let pk := c.ks.getPublicKey mpkID
    let sk := pk.2.getSecretKey mskID
    let c1 := { c with ks := sk.2 }
    let res ← caught (match pk.1, sk.1 with
      | some mpk, some msk => match sch, input with
        | .cp, .attrs l => cpKeyBody env c mpk msk l r.x
        | .kp, .policy p => kpKeyBody env c mpk msk p r.tape r.r
        | _, _ => .throw .invalidInput
      | _, _ => .throw .invalidParams)
    match res with
    | .error e => .ok (some e, c1)
    | .ok comps =>
      .ok (none, { c1 with ks := c1.ks.addKey keyID (newKey c.alg keyID r.uid comps) .sec })

/-! ## Encapsulation -/

/-- zcontextcpwaters.cpp:268-281, the loop over the shares. -/
def cpEncLoop (env : Env G1 G2 GT) (mpk : Key G1 G2 GT) (k : Option Bytes) (r : Nat → ZMod q) :
    Nat → List (Bytes × (Bytes × ZMod q)) → Container G1 G2 GT → Res (Container G1 G2 GT)
  | _, [], d => .ok d
  | i, row :: rows, d => do
    let g2 ← deref (← getG2 mpk.comps b!"g2")
    let Di := r i • g2
    let key := hashKey env.md row.1
    let d ← Container.setComponent d (elementLabel b!"D" key) (.g2 Di)
    let kb ← deref k
    let hG1 := hashToG1 env kb row.2.1
    let g1a ← deref (← getG1 mpk.comps b!"g1a")
    let Ci := row.2.2 • g1a + (-(r i)) • hG1
    let d ← Container.setComponent d (elementLabel b!"C" key) (.g1 Ci)
    cpEncLoop env mpk k r (i + 1) rows d

/-- zcontextcpwaters.cpp:243-284: the key and the ciphertext. -/
def cpEncBody (env : Env G1 G2 GT) (c : Ctx G1 G2 GT) (mpk : Key G1 G2 GT) (p : Policy) (len : Nat) (r : Rand q)
    (ct : Ciphertext G1 G2 GT) : Res (Bytes × Ciphertext G1 G2 GT) := do
  let k ← getBytes mpk.comps b!"k"
  usePairing c
  let A ← deref (← getGT mpk.comps b!"A")
  let C := r.x • A
  let (sh, _) ← shareSecret env.ndebug {} (some p) r.x r.tape
  let d ← Container.setComponent ct.comps b!"policy" (.bytes p.compact)
  let g1 ← deref (← getG1 mpk.comps b!"g1")
  let d ← Container.setComponent d b!"Cprime" (.g1 (r.x • g1))
  let d ← cpEncLoop env mpk k r.r 0 sh.results d
  let key ← symKeyOf env C len
  .ok (key, { ct with alg := c.alg, comps := d })

/-- zcontextkpgpsw.cpp:247-253, the loop over the attributes. -/
def kpEncLoop (env : Env G1 G2 GT) (k : Option Bytes) (t : ZMod q) : List Bytes → Container G1 G2 GT →
    Res (Container G1 G2 GT)
  | [], d => .ok d
  | a :: as, d => do
    let kb ← deref k
    let hG1 := t • hashToG1 env kb a
    let d ← Container.setComponent d (elementLabel b!"C" (hashKey env.md a)) (.g1 hG1)
    kpEncLoop env k t as d

/-- zcontextkpgpsw.cpp:235-260. -/
def kpEncBody (env : Env G1 G2 GT) (c : Ctx G1 G2 GT) (mpk : Key G1 G2 GT) (l : AttrList) (len : Nat) (r : Rand q)
    (ct : Ciphertext G1 G2 GT) : Res (Bytes × Ciphertext G1 G2 GT) := do
  let k ← getBytes mpk.comps b!"k"
  usePairing c
  let Y ← deref (← getGT mpk.comps b!"Y")
  let Cpr1 := r.x • Y
  let g2 ← deref (← getG2 mpk.comps b!"g2")
  let d ← Container.setComponent ct.comps b!"Cpr2" (.g2 (r.x • g2))
  let d ← kpEncLoop env k r.x l.attrs d
  let d ← Container.setComponent d b!"attributes" (.attrs l)
  let key ← symKeyOf env Cpr1 len
  .ok (key, { ct with alg := c.alg, comps := d })

/-- zcontextcpwaters.cpp:221-290, zcontextkpgpsw.cpp:213-271 `encryptKEM`: the code or key and ciphertext, and the
context afterwards. -/
def encryptKEM (env : Env G1 G2 GT) (sch : Scheme) (c : Ctx G1 G2 GT) (mpkID : Bytes) (input : FInput) (len : Nat)
    (r : Rand q) (ct : Ciphertext G1 G2 GT) : Res (Except Err (Bytes × Ciphertext G1 G2 GT) × Ctx G1 G2 GT) := do
  let good := match sch, input with
    | .cp, .policy _ => true
    | .kp, .attrs _ => true
    | _, _ => false
  if good = false then .ok (.error .invalidInput, c)
  else
    let pk := c.ks.getPublicKey mpkID
    let res ← caught (match pk.1 with
      | some mpk => match sch, input with
        | .cp, .policy p => cpEncBody env c mpk p len r ct
        | .kp, .attrs l => kpEncBody env c mpk l len r ct
        | _, _ => .throw .invalidInput
      | none => .throw .invalidParams)
    .ok (res, { c with ks := pk.2 })

/-! ## Decapsulation -/

/-- zcontextcpwaters.cpp:342-354, the loop over the recovered rows: the running product and the pairs. -/
def cpDecLoop (env : Env G1 G2 GT) (key ct : Container G1 G2 GT) : List (Bytes × (Bytes × ZMod q)) → G1 →
    List (G1 × G2) → Res (G1 × List (G1 × G2))
  | [], prod1, l => .ok (prod1, l)
  | row :: rows, prod1, l => do
    let Kx ← getG1 key (elementLabel b!"KX" (hashKey env.md row.2.1))
    let Cx ← notNull (← getG1 ct (elementLabel b!"C" (hashKey env.md row.1)))
    let Dx ← notNull (← getG2 ct (elementLabel b!"D" (hashKey env.md row.1)))
    let Kx ← deref Kx
    cpDecLoop env key ct rows (prod1 + row.2.2 • Cx) (l ++ [(row.2.2 • Kx, Dx)])

/-- zcontextcpwaters.cpp:318-370. -/
def cpDecBody (q : Nat) [Fact q.Prime] [Module (ZMod q) G1] (env : Env G1 G2 GT) (c : Ctx G1 G2 GT)
    (key : Container G1 G2 GT) (ct : Container G1 G2 GT) (len : Nat) : Res Bytes := do
  let inp ← (Container.getComponent key b!"input").1
  let text ← notNull (← getBytes ct b!"policy")
  let pol ← createPolicyTree env.mktime text
  let attrs ← castAttrs inp
  let (good, o, _) ← recoverCoefficients (F := ZMod q) env.sort env.ndebug {} pol attrs.attrs
  if good = false then .throw .decryptionFailed
  else do
    let (prod1, l) ← cpDecLoop env key ct o.results 0 []
    usePairing c
    let prodT ← multiPairing env l
    let Cprime ← getG1 ct b!"Cprime"
    let K ← getG2 key b!"K"
    let L ← getG2 key b!"L"
    let Cprime ← notNull Cprime
    let K ← notNull K
    let L ← notNull L
    symKeyOf env (env.e Cprime K - (prodT + env.e prod1 L)) len

/-- zcontextkpgpsw.cpp:324-338, the loop over the recovered rows. -/
def kpDecLoop (env : Env G1 G2 GT) (key ct : Container G1 G2 GT) : List (Bytes × (Bytes × ZMod q)) → G1 →
    List (G1 × G2) → Res (G1 × List (G1 × G2))
  | [], prod1, l => .ok (prod1, l)
  | row :: rows, prod1, l => do
    let Ci ← getG1 ct (elementLabel b!"C" (hashKey env.md row.2.1))
    let di ← getG2 key (elementLabel b!"d" (hashKey env.md row.1))
    let Di ← deref (← getG1 key (elementLabel b!"D" (hashKey env.md row.1)))
    let Ci ← deref Ci
    let di ← deref di
    kpDecLoop env key ct rows (prod1 + row.2.2 • Di) (l ++ [(row.2.2 • Ci, di)])

/-- zcontextkpgpsw.cpp:297-347. -/
def kpDecBody (q : Nat) [Fact q.Prime] [Module (ZMod q) G1] (env : Env G1 G2 GT) (c : Ctx G1 G2 GT)
    (key : Container G1 G2 GT) (ct : Container G1 G2 GT) (len : Nat) : Res Bytes := do
  let text ← notNull (← getBytes key b!"input")
  let pol ← createPolicyTree env.mktime text
  let inp ← (Container.getComponent ct b!"attributes").1
  let attrs ← castAttrs inp
  let (good, o, _) ← recoverCoefficients (F := ZMod q) env.sort env.ndebug {} pol attrs.attrs
  if good = false then .throw .decryptionFailed
  else do
    let (prod1, l) ← kpDecLoop env key ct o.results 0 []
    usePairing c
    let prodT ← multiPairing env l
    let Cpr2 ← notNull (← getG2 ct b!"Cpr2")
    symKeyOf env (env.e prod1 Cpr2 - prodT) len

/-- zcontextcpwaters.cpp:304-377, zcontextkpgpsw.cpp:285-354 `decryptKEM`. The master public key id is not used. -/
def decryptKEM (q : Nat) [Fact q.Prime] [Module (ZMod q) G1] (env : Env G1 G2 GT) (sch : Scheme) (c : Ctx G1 G2 GT)
    (keyID : Bytes) (ct : Ciphertext G1 G2 GT) (len : Nat) : Res (Except Err Bytes × Ctx G1 G2 GT) := do
  let sk := c.ks.getSecretKey keyID
  let res ← caught (match sk.1 with
    | none => .throw .invalidInput
    | some key => match sch with
      | .cp => cpDecBody q env c key.comps ct.comps len
      | .kp => kpDecBody q env c key.comps ct.comps len)
  .ok (res, { c with ks := sk.2 })

/-! ## The CPA wrapper -/

/-- `DEFAULT_SYM_KEY_BYTES` (include/lsss/zconstants.h:51). -/
def symKeyBytes : Nat := 32

/-- zcontextabe.cpp:309-339 `encrypt`. A context without pairing object cannot get past `encryptKEM`. -/
def encrypt (env : Env G1 G2 GT) (sch : Scheme) (c : Ctx G1 G2 GT) (mpkID : Bytes) (input : FInput)
    (plaintext : Bytes) (r : Rand q) (ct : Ciphertext G1 G2 GT) :
    Res (Except Err (Ciphertext G1 G2 GT) × Ctx G1 G2 GT) := do
  let (res, c1) ← encryptKEM env sch c mpkID input symKeyBytes r ct
  match res with
  | .error e => .ok (.error e, c1)
  | .ok (K, ct1) => do
    let mask := hashFromBytes env.md K plaintext.length schemeHashPrefix
    let x ← BS.xorAssign plaintext mask
    let d ← Container.setComponent ct1.comps b!"_ED" (.bytes x)
    .ok (.ok { ct1 with comps := d }, c1)

/-- zcontextabe.cpp:352-385 `decrypt`: the code (`none`: no error), the output plaintext and the context. -/
def decrypt (q : Nat) [Fact q.Prime] [Module (ZMod q) G1] (env : Env G1 G2 GT) (sch : Scheme) (c : Ctx G1 G2 GT)
    (keyID : Bytes) (ct : Ciphertext G1 G2 GT) : Res (Option Err × Bytes × Ctx G1 G2 GT) := do
  let (res, c1) ← decryptKEM q env sch c keyID ct symKeyBytes
  let out ← caught (match res with
    | .error e => .throw e
    | .ok K => do
      let ed ← getBytes ct.comps b!"_ED"
      let enc ← notNull ed
      let mask := hashFromBytes env.md K enc.length schemeHashPrefix
      BS.xorAssign enc mask)
  match out with
  | .error e => .ok (some e, [], c1)
  | .ok p => .ok (none, p, c1)

end Scheme
end Abe
