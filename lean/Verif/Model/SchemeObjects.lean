import Verif.Model.Cpa
/-!
# The schemes on shared objects (schemes/*.cpp, src/abe/zcontextabe.cpp)

Model/Scheme treats keys and ciphertexts as values and forgets the null entries that a failing `getComponent`
(src/abe/zcontainer.cpp:97-106) leaves behind. Here the same functions run on the objects themselves: the keystore
hands out pointers to its keys, so every lookup of a component acts on the stored key, also when the operation fails
afterwards.

Operands of `+` are evaluated from left to right (the order is unspecified in C++; it only matters when both lookups
fail). A ciphertext that is not completed is dropped.
-/
set_option autoImplicit false
namespace Abe
namespace Live
open Scheme
variable {G1 G2 GT : Type}

/-- A computation on objects of type `σ`: what it returns, and the objects afterwards, also when it raises. -/
def Mut (σ α : Type) : Type := σ → Res α × σ

/-- Sequence: the second part only runs if the first returns. -/
def Mut.bind {σ α β : Type} (m : Mut σ α) (f : α → Mut σ β) : Mut σ β := fun s =>
  match m s with
  | (.ok a, s') => f a s'
  | (.throw e, s') => (.throw e, s')
  | (.ub, s') => (.ub, s')
  | (.abort, s') => (.abort, s')

instance {σ : Type} : Monad (Mut σ) where
  pure a := fun s => (.ok a, s)
  bind := Mut.bind

/-- A part that does not touch the objects. -/
def lift {σ α : Type} (r : Res α) : Mut σ α := fun s => (r, s)

/-- The components of the two objects that an operation uses. -/
abbrev Two (G1 G2 GT : Type) := Container G1 G2 GT × Container G1 G2 GT

/-- `getComponent` of the first object. -/
def fst (name : Bytes) : Mut (Two G1 G2 GT) (Obj G1 G2 GT) := fun s =>
  ((Container.getComponent s.1 name).1, (Container.getComponent s.1 name).2, s.2)

/-- `getComponent` of the second object. -/
def snd (name : Bytes) : Mut (Two G1 G2 GT) (Obj G1 G2 GT) := fun s =>
  ((Container.getComponent s.2 name).1, s.1, (Container.getComponent s.2 name).2)

/-- `dynamic_cast<ZP *>` (include/abe/zcontainer.h:69). -/
def asZP : Obj G1 G2 GT → Option Nat
  | .zp v => some v
  | _ => none
/-- `dynamic_cast<G1 *>` (zcontainer.h:70). -/
def asG1 : Obj G1 G2 GT → Option G1
  | .g1 v => some v
  | _ => none
/-- `dynamic_cast<G2 *>` (zcontainer.h:71). -/
def asG2 : Obj G1 G2 GT → Option G2
  | .g2 v => some v
  | _ => none
/-- `dynamic_cast<GT *>` (zcontainer.h:72). -/
def asGT : Obj G1 G2 GT → Option GT
  | .gt v => some v
  | _ => none
/-- `dynamic_cast<OpenABEByteString *>` (zcontainer.h:74). -/
def asBytes : Obj G1 G2 GT → Option Bytes
  | .bytes v => some v
  | _ => none

variable {q : Nat} [Fact q.Prime]
variable [AddCommGroup G1] [Module (ZMod q) G1] [AddCommGroup G2] [Module (ZMod q) G2] [AddCommGroup GT]
  [Module (ZMod q) GT]

/-! ## Key generation: the first object is the master public key, the second the master secret key -/

/-- zcontextcpwaters.cpp:167-196. -/
def cpKeyBody (env : Env G1 G2 GT) (c : Ctx G1 G2 GT) (l : AttrList) (t : ZMod q) :
    Mut (Two G1 G2 GT) (Container G1 G2 GT) := do
  let k ← fst b!"k"
  let d ← lift (Container.setComponent [] b!"input" (.attrs l))
  lift (usePairing c)
  let alpha ← lift (deref (asZP (← snd b!"alpha")))
  let g2 ← lift (deref (asG2 (← fst b!"g2")))
  let g2a ← lift (deref (asG2 (← snd b!"g2a")))
  let d ← lift (Container.setComponent d b!"K" (.g2 ((alpha : ZMod q) • g2 + t • g2a)))
  let g2' ← lift (deref (asG2 (← fst b!"g2")))
  let d ← lift (Container.setComponent d b!"L" (.g2 (t • g2')))
  lift (cpKeyLoop env (asBytes k) t l.attrs d)

/-- zcontextkpgpsw.cpp:178-190, the loop over the shares. -/
def kpKeyLoop (env : Env G1 G2 GT) (k : Option Bytes) (r : Nat → ZMod q) :
    Nat → List (Bytes × (Bytes × ZMod q)) → Container G1 G2 GT → Mut (Two G1 G2 GT) (Container G1 G2 GT)
  | _, [], d => lift (.ok d)
  | i, row :: rows, d => do
    let g1 ← lift (deref (asG1 (← fst b!"g1")))
    let kb ← lift (deref k)
    let g2 ← lift (deref (asG2 (← fst b!"g2")))
    let key := hashKey env.md row.1
    let d ← lift (Container.setComponent d (elementLabel b!"D" key) (.g1 (row.2.2 • g1 + r i • hashToG1 env kb row.2.1)))
    let d ← lift (Container.setComponent d (elementLabel b!"d" key) (.g2 (r i • g2)))
    kpKeyLoop env k r (i + 1) rows d

/-- zcontextkpgpsw.cpp:161-190. -/
def kpKeyBody (env : Env G1 G2 GT) (c : Ctx G1 G2 GT) (p : Policy) (tape r : Nat → ZMod q) :
    Mut (Two G1 G2 GT) (Container G1 G2 GT) := do
  let k ← fst b!"k"
  let d ← lift (Container.setComponent [] b!"input" (.bytes p.compact))
  let y ← lift (deref (asZP (← snd b!"y")))
  let sh ← lift (shareSecret env.ndebug {} (some p) (y : ZMod q) tape)
  match sh.1.results with
  | [] => lift (.ok d)
  | rows => do
    lift (usePairing c)
    kpKeyLoop env (asBytes k) r 0 rows d

/-! ## Encapsulation: the first object is the master public key; there is no second one -/

/-- zcontextcpwaters.cpp:268-281. -/
def cpEncLoop (env : Env G1 G2 GT) (k : Option Bytes) (r : Nat → ZMod q) :
    Nat → List (Bytes × (Bytes × ZMod q)) → Container G1 G2 GT → Mut (Two G1 G2 GT) (Container G1 G2 GT)
  | _, [], d => lift (.ok d)
  | i, row :: rows, d => do
    let g2 ← lift (deref (asG2 (← fst b!"g2")))
    let key := hashKey env.md row.1
    let d ← lift (Container.setComponent d (elementLabel b!"D" key) (.g2 (r i • g2)))
    let kb ← lift (deref k)
    let g1a ← lift (deref (asG1 (← fst b!"g1a")))
    let d ← lift (Container.setComponent d (elementLabel b!"C" key)
      (.g1 (row.2.2 • g1a + (-(r i)) • hashToG1 env kb row.2.1)))
    cpEncLoop env k r (i + 1) rows d

/-- zcontextcpwaters.cpp:243-284: the key and the components of the ciphertext. -/
def cpEncBody (env : Env G1 G2 GT) (c : Ctx G1 G2 GT) (p : Policy) (len : Nat) (r : Rand q) (ct : Ciphertext G1 G2 GT) :
    Mut (Two G1 G2 GT) (Bytes × Ciphertext G1 G2 GT) := do
  let k ← fst b!"k"
  lift (usePairing c)
  let A ← lift (deref (asGT (← fst b!"A")))
  let sh ← lift (shareSecret env.ndebug {} (some p) r.x r.tape)
  let d ← lift (Container.setComponent ct.comps b!"policy" (.bytes p.compact))
  let g1 ← lift (deref (asG1 (← fst b!"g1")))
  let d ← lift (Container.setComponent d b!"Cprime" (.g1 (r.x • g1)))
  let d ← cpEncLoop env (asBytes k) r.r 0 sh.1.results d
  let key ← lift (symKeyOf env (r.x • A) len)
  lift (.ok (key, { ct with alg := c.alg, comps := d }))

/-- zcontextkpgpsw.cpp:235-260. -/
def kpEncBody (env : Env G1 G2 GT) (c : Ctx G1 G2 GT) (l : AttrList) (len : Nat) (r : Rand q) (ct : Ciphertext G1 G2 GT) :
    Mut (Two G1 G2 GT) (Bytes × Ciphertext G1 G2 GT) := do
  let k ← fst b!"k"
  lift (usePairing c)
  let Y ← lift (deref (asGT (← fst b!"Y")))
  let g2 ← lift (deref (asG2 (← fst b!"g2")))
  let d ← lift (Container.setComponent ct.comps b!"Cpr2" (.g2 (r.x • g2)))
  let d ← lift (kpEncLoop env (asBytes k) r.x l.attrs d)
  let d ← lift (Container.setComponent d b!"attributes" (.attrs l))
  let key ← lift (symKeyOf env (r.x • Y) len)
  lift (.ok (key, { ct with alg := c.alg, comps := d }))

/-! ## Decapsulation: the first object is the key, the second the ciphertext -/

/-- zcontextcpwaters.cpp:342-354. -/
def cpDecLoop (env : Env G1 G2 GT) : List (Bytes × (Bytes × ZMod q)) → G1 → List (G1 × G2) →
    Mut (Two G1 G2 GT) (G1 × List (G1 × G2))
  | [], prod1, l => lift (.ok (prod1, l))
  | row :: rows, prod1, l => do
    let Kx ← fst (elementLabel b!"KX" (hashKey env.md row.2.1))
    let Cx ← lift (notNull (asG1 (← snd (elementLabel b!"C" (hashKey env.md row.1)))))
    let Dx ← lift (notNull (asG2 (← snd (elementLabel b!"D" (hashKey env.md row.1)))))
    let Kx ← lift (deref (asG1 Kx))
    cpDecLoop env rows (prod1 + row.2.2 • Cx) (l ++ [(row.2.2 • Kx, Dx)])

/-- zcontextcpwaters.cpp:318-370. -/
def cpDecBody (q : Nat) [Fact q.Prime] [Module (ZMod q) G1] (env : Env G1 G2 GT) (c : Ctx G1 G2 GT) (len : Nat) :
    Mut (Two G1 G2 GT) Bytes := do
  let inp ← fst b!"input"
  let text ← lift (notNull (asBytes (← snd b!"policy")))
  let pol ← lift (createPolicyTree env.mktime text)
  let attrs ← lift (castAttrs inp)
  let rec_ ← lift (recoverCoefficients (F := ZMod q) env.sort env.ndebug {} pol attrs.attrs)
  if rec_.1 = false then lift (.throw .decryptionFailed)
  else do
    let pl ← cpDecLoop env rec_.2.1.results 0 []
    lift (usePairing c)
    let prodT ← lift (multiPairing env pl.2)
    let Cprime ← snd b!"Cprime"
    let K ← fst b!"K"
    let L ← fst b!"L"
    let Cprime ← lift (notNull (asG1 Cprime))
    let K ← lift (notNull (asG2 K))
    let L ← lift (notNull (asG2 L))
    lift (symKeyOf env (env.e Cprime K - (prodT + env.e pl.1 L)) len)

/-- zcontextkpgpsw.cpp:324-338. -/
def kpDecLoop (env : Env G1 G2 GT) : List (Bytes × (Bytes × ZMod q)) → G1 → List (G1 × G2) →
    Mut (Two G1 G2 GT) (G1 × List (G1 × G2))
  | [], prod1, l => lift (.ok (prod1, l))
  | row :: rows, prod1, l => do
    let Ci ← snd (elementLabel b!"C" (hashKey env.md row.2.1))
    let di ← fst (elementLabel b!"d" (hashKey env.md row.1))
    let Di ← lift (deref (asG1 (← fst (elementLabel b!"D" (hashKey env.md row.1)))))
    let Ci ← lift (deref (asG1 Ci))
    let di ← lift (deref (asG2 di))
    kpDecLoop env rows (prod1 + row.2.2 • Di) (l ++ [(row.2.2 • Ci, di)])

/-- zcontextkpgpsw.cpp:297-347. -/
def kpDecBody (q : Nat) [Fact q.Prime] [Module (ZMod q) G1] (env : Env G1 G2 GT) (c : Ctx G1 G2 GT) (len : Nat) :
    Mut (Two G1 G2 GT) Bytes := do
  let text ← lift (notNull (asBytes (← fst b!"input")))
  let pol ← lift (createPolicyTree env.mktime text)
  let inp ← snd b!"attributes"
  let attrs ← lift (castAttrs inp)
  let rec_ ← lift (recoverCoefficients (F := ZMod q) env.sort env.ndebug {} pol attrs.attrs)
  if rec_.1 = false then lift (.throw .decryptionFailed)
  else do
    let pl ← kpDecLoop env rec_.2.1.results 0 []
    lift (usePairing c)
    let prodT ← lift (multiPairing env pl.2)
    let Cpr2 ← lift (notNull (asG2 (← snd b!"Cpr2")))
    lift (symKeyOf env (env.e pl.1 Cpr2 - prodT) len)

/-- The input has the type that key generation needs (zcontextcpwaters.cpp:157-161, zcontextkpgpsw.cpp:150-154). -/
def keyInput (sch : Scheme) (input : FInput) : Bool :=
  match sch, input with
  | .cp, .attrs _ => true
  | .kp, .policy _ => true
  | _, _ => false

/-- The input has the type that encryption needs (zcontextcpwaters.cpp:230-235, zcontextkpgpsw.cpp:225-231). -/
def encInput (sch : Scheme) (input : FInput) : Bool :=
  match sch, input with
  | .cp, .policy _ => true
  | .kp, .attrs _ => true
  | _, _ => false

/-- The part of `generateDecryptionKey` after the lookup of the two master keys; the input has been checked. -/
def keyBody (env : Env G1 G2 GT) (sch : Scheme) (c : Ctx G1 G2 GT) (input : FInput) (r : Rand q) :
    Mut (Two G1 G2 GT) (Container G1 G2 GT) :=
  match sch, input with
  | .cp, .attrs l => cpKeyBody env c l r.x
  | .kp, .policy p => kpKeyBody env c p r.tape r.r
  | _, _ => lift (.throw .invalidInput)

/-- The part of `encryptKEM` after the lookup of the public key; the input has been checked. -/
def encBody (env : Env G1 G2 GT) (sch : Scheme) (c : Ctx G1 G2 GT) (input : FInput) (r : Rand q) (ct : Ciphertext G1 G2 GT) :
    Mut (Two G1 G2 GT) (Bytes × Ciphertext G1 G2 GT) :=
  match sch, input with
  | .cp, .policy p => cpEncBody env c p symKeyBytes r ct
  | .kp, .attrs l => kpEncBody env c l symKeyBytes r ct
  | _, _ => lift (.throw .invalidInput)

/-- The part of `decryptKEM` after the lookup of the key, then zcontextabe.cpp:367-376. -/
def plainBody (q : Nat) [Fact q.Prime] [Module (ZMod q) G1] (env : Env G1 G2 GT) (sch : Scheme) (c : Ctx G1 G2 GT) :
    Mut (Two G1 G2 GT) Bytes := do
  let K ← match sch with
    | .cp => cpDecBody q env c symKeyBytes
    | .kp => kpDecBody q env c symKeyBytes
  let enc ← lift (notNull (asBytes (← snd b!"_ED")))
  lift (BS.xorAssign enc (hashFromBytes env.md K enc.length schemeHashPrefix))

/-! ## The context -/

/-- The components of the public key stored under `id` are now `d`. -/
def setPub (ks : KeyStore (Key G1 G2 GT)) (id : Bytes) (d : Container G1 G2 GT) : KeyStore (Key G1 G2 GT) :=
  match SMap.find id ks.pub with
  | some (some k) => { ks with pub := SMap.insert id (some { k with comps := d }) ks.pub }
  | _ => ks

/-- The components of the secret key stored under `id` are now `d`. -/
def setSec (ks : KeyStore (Key G1 G2 GT)) (id : Bytes) (d : Container G1 G2 GT) : KeyStore (Key G1 G2 GT) :=
  match SMap.find id ks.sec with
  | some (some k) => { ks with sec := SMap.insert id (some { k with comps := d }) ks.sec }
  | _ => ks

/-- zcontextcpwaters.cpp:148-209, zcontextkpgpsw.cpp:141-201 `generateDecryptionKey`. -/
def generateKey (env : Env G1 G2 GT) (sch : Scheme) (c : Ctx G1 G2 GT) (input : FInput) (keyID mpkID mskID : Bytes)
    (r : Rand q) : Res (Option Err) × Ctx G1 G2 GT :=
  if keyInput sch input = false then (.ok (some .invalidInput), c)
  else
    let pk := c.ks.getPublicKey mpkID
    let sk := pk.2.getSecretKey mskID
    match pk.1, sk.1 with
    | some mpk, some msk =>
      let out := keyBody env sch c input r (mpk.comps, msk.comps)
      let ks := setSec (setPub sk.2 mpkID out.2.1) mskID out.2.2
      match caught out.1 with
      | .ok (.error e) => (.ok (some e), { c with ks := ks })
      | .ok (.ok comps) => (.ok none, { c with ks := ks.addKey keyID (newKey c.alg keyID r.uid comps) .sec })
      | .throw e => (.throw e, { c with ks := ks })
      | .ub => (.ub, { c with ks := ks })
      | .abort => (.abort, { c with ks := ks })
    | _, _ => (.ok (some .invalidParams), { c with ks := sk.2 })

/-- zcontextabe.cpp:309-339 `encrypt` into a new ciphertext, with zcontextcpwaters.cpp:221-290,
zcontextkpgpsw.cpp:213-271 `encryptKEM`. -/
def encrypt (env : Env G1 G2 GT) (sch : Scheme) (c : Ctx G1 G2 GT) (mpkID : Bytes) (input : FInput) (plaintext : Bytes)
    (r : Rand q) (ct : Ciphertext G1 G2 GT) : Res (Except Err (Ciphertext G1 G2 GT)) × Ctx G1 G2 GT :=
  if encInput sch input = false then (.ok (.error .invalidInput), c)
  else
    let pk := c.ks.getPublicKey mpkID
    match pk.1 with
    | some mpk =>
      let out := encBody env sch c input r ct (mpk.comps, [])
      let c' := { c with ks := setPub pk.2 mpkID out.2.1 }
      match caught out.1 with
      | .ok (.error e) => (.ok (.error e), c')
      | .ok (.ok (K, ct1)) => (do
          let x ← BS.xorAssign plaintext (hashFromBytes env.md K plaintext.length schemeHashPrefix)
          let d ← Container.setComponent ct1.comps b!"_ED" (.bytes x)
          .ok (.ok { ct1 with comps := d }), c')
      | .throw e => (.throw e, c')
      | .ub => (.ub, c')
      | .abort => (.abort, c')
    | none => (.ok (.error .invalidParams), { c with ks := pk.2 })

/-- zcontextabe.cpp:352-385 `decrypt`, with zcontextcpwaters.cpp:304-377, zcontextkpgpsw.cpp:285-354 `decryptKEM`: the
code (`none`: no error) and the plaintext, the context and the ciphertext afterwards. -/
def decrypt (q : Nat) [Fact q.Prime] [Module (ZMod q) G1] (env : Env G1 G2 GT) (sch : Scheme) (c : Ctx G1 G2 GT)
    (keyID : Bytes) (ct : Ciphertext G1 G2 GT) : Res (Option Err × Bytes) × Ctx G1 G2 GT × Ciphertext G1 G2 GT :=
  let sk := c.ks.getSecretKey keyID
  match sk.1 with
  | none => (.ok (some .invalidInput, []), { c with ks := sk.2 }, ct)
  | some key =>
    let out := plainBody q env sch c (key.comps, ct.comps)
    ((do
      match ← caught out.1 with
      | .error e => .ok (some e, [])
      | .ok p => .ok (none, p)),
     { c with ks := setSec sk.2 keyID out.2.1 }, { ct with comps := out.2.2 })

/-- zcontextabe.cpp:141-150 `getHashKey`. -/
def getHashKey (c : Ctx G1 G2 GT) (mpkID : Bytes) : Res (Option Bytes) × Ctx G1 G2 GT :=
  let pk := c.ks.getPublicKey mpkID
  match pk.1 with
  | none => (.throw .invalidParams, { c with ks := pk.2 })
  | some mpk =>
    let r := Container.getComponent mpk.comps b!"k"
    ((do let o ← r.1; .ok (asBytes o)), { c with ks := setPub pk.2 mpkID r.2 })

/-- zcontextabe.cpp:160-181 `exportKey`; writing does not change the key. -/
def exportKey (cd : Codec G1 G2 GT) (c : Ctx G1 G2 GT) (keyID : Bytes) : Res (Except Err Bytes) × Ctx G1 G2 GT :=
  let r := c.ks.getKey keyID
  match r.1 with
  | none => (.ok (.error .invalidInput), { c with ks := r.2 })
  | some k => ((do
      match ← caught (k.exportBytes cd) with
      | .error _ => .ok (.error .invalidInput)
      | .ok b => .ok (.ok b)), { c with ks := r.2 })

/-- zcontextabe.cpp:193-218 `loadKey`: the pairing object is made after the header was read. -/
def loadKey (mk : Mktime) (cd : Codec G1 G2 GT) (c : Ctx G1 G2 GT) (id blob rnd : Bytes) (kind : KeyKind) :
    Res (Option Err) × Ctx G1 G2 GT :=
  match (Key.parseHeader blob rnd : Res (Key G1 G2 GT × Bytes)) with
  | .ok (k, body) =>
    if k.alg ≠ c.alg then (.ok (some .invalidKeyHeader), { c with ready := true })
    else match k.loadBody mk cd body with
      | .ok k1 => (.ok none, { c with ready := true, ks := c.ks.addKey id k1 kind })
      | .throw e => (.throw e, { c with ready := true })
      | .ub => (.ub, { c with ready := true })
      | .abort => (.abort, { c with ready := true })
  | .throw e => (.throw e, c)
  | .ub => (.ub, c)
  | .abort => (.abort, c)

/-! ## Programs that use one context -/

/-- A context and the ciphertext objects of the program, numbered. -/
structure World (G1 G2 GT : Type) where
  ctx : Ctx G1 G2 GT
  cts : Nat → Ciphertext G1 G2 GT := fun _ => {}

/-- The calls of a program with their arguments and the random values they draw. -/
inductive Call (q : Nat) (G1 G2 : Type)
  | params (mpkID mskID : Bytes) (r : ParamRand q G1 G2)
  | keygen (input : FInput) (keyID mpkID mskID : Bytes) (r : Rand q)
  | encrypt (j : Nat) (mpkID : Bytes) (input : FInput) (plaintext : Bytes) (r : Rand q)
  | decrypt (keyID : Bytes) (j : Nat)
  | hashKey (mpkID : Bytes)
  | exportKey (id : Bytes)
  | loadKey (id blob rnd : Bytes) (kind : KeyKind)
  | deleteKey (id : Bytes)
  | check (id : Bytes)
  | exportCt (j : Nat)
  | loadCt (j : Nat) (blob : Bytes)

/-- What a call returns. -/
inductive Out
  | code (e : Option Err)
  | plain (e : Option Err) (p : Bytes)
  | hash (k : Option Bytes)
  | blob (r : Except Err Bytes)
  | found (b : Bool)

/-- The result with another shape. -/
def mapRes {α β : Type} (f : α → β) : Res α → Res β
  | .ok a => .ok (f a)
  | .throw e => .throw e
  | .ub => .ub
  | .abort => .abort

/-- Write the slot `j`. -/
def setCt (cts : Nat → Ciphertext G1 G2 GT) (j : Nat) (ct : Ciphertext G1 G2 GT) : Nat → Ciphertext G1 G2 GT :=
  fun i => if i = j then ct else cts i

/-- One call on the objects: zcontextabe.cpp:102-385. Encryption and import fill a new ciphertext object, which takes the place of the old
one when the call returns. -/
def step (env : Env G1 G2 GT) (cd : Codec G1 G2 GT) (sch : Scheme) (w : World G1 G2 GT) :
    Call q G1 G2 → Res Out × World G1 G2 GT
  | .params mpkID mskID r =>
    match generateParams env sch w.ctx mpkID mskID r with
    | .ok (e, c) => (.ok (.code e), { w with ctx := c })
    | .throw e => (.throw e, w)
    | .ub => (.ub, w)
    | .abort => (.abort, w)
  | .keygen input keyID mpkID mskID r =>
    let o := generateKey env sch w.ctx input keyID mpkID mskID r
    (mapRes .code o.1, { w with ctx := o.2 })
  | .encrypt j mpkID input plaintext r =>
    let o := encrypt env sch w.ctx mpkID input plaintext r {}
    match o.1 with
    | .ok (.ok ct) => (.ok (.code none), ⟨o.2, setCt w.cts j ct⟩)
    | .ok (.error e) => (.ok (.code (some e)), { w with ctx := o.2 })
    | .throw e => (.throw e, { w with ctx := o.2 })
    | .ub => (.ub, { w with ctx := o.2 })
    | .abort => (.abort, { w with ctx := o.2 })
  | .decrypt keyID j =>
    let o := decrypt q env sch w.ctx keyID (w.cts j)
    (mapRes (fun x => .plain x.1 x.2) o.1, ⟨o.2.1, setCt w.cts j o.2.2⟩)
  | .hashKey mpkID =>
    let o := getHashKey w.ctx mpkID
    (mapRes .hash o.1, { w with ctx := o.2 })
  | .exportKey id =>
    let o := exportKey cd w.ctx id
    (mapRes .blob o.1, { w with ctx := o.2 })
  | .loadKey id blob rnd kind =>
    let o := loadKey env.mktime cd w.ctx id blob rnd kind
    (mapRes .code o.1, { w with ctx := o.2 })
  | .deleteKey id =>
    let o := Cpa.deleteKey w.ctx id
    (.ok (.code o.1), { w with ctx := o.2 })
  | .check id => (.ok (.found (Cpa.checkSecretKey w.ctx id)), w)
  | .exportCt j => (mapRes (fun b => .blob (.ok b)) ((w.cts j).exportBytes cd), w)
  | .loadCt j blob =>
    match Ciphertext.load env.mktime cd {} blob with
    | .ok ct => (.ok (.code none), { w with cts := setCt w.cts j ct })
    | .throw e => (.throw e, w)
    | .ub => (.ub, w)
    | .abort => (.abort, w)

/-- The objects after a list of calls. -/
def run (env : Env G1 G2 GT) (cd : Codec G1 G2 GT) (sch : Scheme) (w : World G1 G2 GT) (cs : List (Call q G1 G2)) :
    World G1 G2 GT := cs.foldl (fun w c => (step env cd sch w c).2) w

/-! ## The same calls on values -/

/-- What a call returned and the world afterwards; `w` is the world after an error that nobody caught. -/
def after {α : Type} (w : World G1 G2 GT) (f : α → Out × World G1 G2 GT) : Res α → Res Out × World G1 G2 GT
  | .ok a => (.ok (f a).1, (f a).2)
  | .throw e => (.throw e, w)
  | .ub => (.ub, w)
  | .abort => (.abort, w)

/-- One call with the functions of `Model/Scheme` and `Model/Cpa`, where components are values and lookups leave nothing
behind: zcontextabe.cpp:102-385. After an error that is not caught the store has the null entry of the lookup that came first
(zcontextabe.cpp:143, 165), and the pairing object exists once a header was read (zcontextabe.cpp:202-205). -/
def valueStep (env : Env G1 G2 GT) (cd : Codec G1 G2 GT) (sch : Scheme) (w : World G1 G2 GT) :
    Call q G1 G2 → Res Out × World G1 G2 GT
  | .params mpkID mskID r =>
    after w (fun x => (.code x.1, { w with ctx := x.2 })) (generateParams env sch w.ctx mpkID mskID r)
  | .keygen input keyID mpkID mskID r =>
    after w (fun x => (.code x.1, { w with ctx := x.2 })) (Scheme.generateKey env sch w.ctx input keyID mpkID mskID r)
  | .encrypt j mpkID input plaintext r =>
    after w (fun x => match x.1 with
      | .ok ct => (.code none, ⟨x.2, setCt w.cts j ct⟩)
      | .error e => (.code (some e), { w with ctx := x.2 })) (Scheme.encrypt env sch w.ctx mpkID input plaintext r {})
  | .decrypt keyID j =>
    after w (fun x => (.plain x.1 x.2.1, { w with ctx := x.2.2 })) (Scheme.decrypt q env sch w.ctx keyID (w.cts j))
  | .hashKey mpkID =>
    after { w with ctx := { w.ctx with ks := (w.ctx.ks.getPublicKey mpkID).2 } }
      (fun x => (.hash x.1, { w with ctx := x.2 })) (Cpa.getHashKey w.ctx mpkID)
  | .exportKey id =>
    after { w with ctx := { w.ctx with ks := (w.ctx.ks.getKey id).2 } }
      (fun x => (.blob x.1, { w with ctx := x.2 })) (Cpa.exportKey cd w.ctx id)
  | .loadKey id blob rnd kind =>
    after (match (Key.parseHeader blob rnd : Res (Key G1 G2 GT × Bytes)) with
        | .ok _ => { w with ctx := { w.ctx with ready := true } }
        | _ => w)
      (fun x => (.code x.1, { w with ctx := x.2 })) (Cpa.loadKey env.mktime cd w.ctx id blob rnd kind)
  | .deleteKey id =>
    let o := Cpa.deleteKey w.ctx id
    (.ok (.code o.1), { w with ctx := o.2 })
  | .check id => (.ok (.found (Cpa.checkSecretKey w.ctx id)), w)
  | .exportCt j => after w (fun b => (.blob (.ok b), w)) ((w.cts j).exportBytes cd)
  | .loadCt j blob =>
    after w (fun ct => (.code none, { w with cts := setCt w.cts j ct })) (Ciphertext.load env.mktime cd {} blob)

/-- The values after a list of calls. -/
def valueRun (env : Env G1 G2 GT) (cd : Codec G1 G2 GT) (sch : Scheme) (w : World G1 G2 GT) (cs : List (Call q G1 G2)) :
    World G1 G2 GT := cs.foldl (fun w c => (valueStep env cd sch w c).2) w

end Live
end Abe
