import Verif.Model.Memory
/-!
# The memory of a context (src/abe/zcontextabe.cpp, src/abe/zkeystore.cpp, schemes/*.cpp)

Model/Memory has containers as maps of pointers, with the keys that an operation reads as values. Here nothing is a value: the
keystore holds pointers to key objects, the program holds ciphertext objects, every one of them has a container, and all calls
of a context run on these containers. A key object is released when the last `shared_ptr` to it goes.

The code is written once, over an interface `Arena` with what it does to containers, and is run on the heap (`onWorld`) and, in
Spec/ContextMemory, on values.

Containers are numbered in the order of their creation; the number stands for the address of the key or ciphertext object.
Simplified: local objects other than keys and ciphertexts are values (the parser's memory is in Model/ParserHeap), allocation does
not fail, a ciphertext object is made at its first use, and encryption and import fill a new ciphertext that takes the place of
the old one when the call returns.
-/
set_option autoImplicit false
namespace Abe
namespace Cm
open Live (Mut lift asZP asG1 asG2 asGT asBytes)
open Scheme
open Mem (Store Cell Heap Ptrs)
variable {G1 G2 GT : Type}

/-! ## Containers -/

/-- What the code does to containers and memory. -/
structure Arena (G1 G2 GT σ : Type) where
  new : Mut σ Nat
  get : Nat → Bytes → Mut σ (Obj G1 G2 GT)
  set : Nat → Bytes → Obj G1 G2 GT → Mut σ Unit
  buf : Bytes → Mut σ Unit
  write : Nat → Mut σ Bytes
  drop : Nat → Mut σ Unit

/-- A call on container `i` of a heap; undefined when there is none. -/
def inside {α : Type} (i : Nat) (m : Mut (Mem.State G1 G2 GT) α) : Mut (Mem.World G1 G2 GT) α := fun w =>
  match (w.conts[i]?).join with
  | none => (.ub, w)
  | some d => ((m (w.heap, d)).1, ⟨(m (w.heap, d)).2.1, w.conts.set i (some (m (w.heap, d)).2.2)⟩)

/-- The container is no more. -/
def forget (i : Nat) : Mut (Mem.World G1 G2 GT) Unit := fun w => (.ok (), { w with conts := w.conts.set i none })

/-- On the heap: src/abe/zcontainer.cpp with the functions of Model/Memory. -/
def onWorld (cd : Codec G1 G2 GT) : Arena G1 G2 GT (Mem.World G1 G2 GT) where
  new := fun w => (.ok w.conts.length, { w with conts := w.conts ++ [some []] })
  get i name := inside i (Mem.getComponent name)
  set i name o := inside i (Mem.setComponent name o)
  buf b := fun w => (.ok (), { w with heap := (w.heap.alloc (.buf b)).2 })
  write i := inside i (Mem.serialize cd)
  drop i := do
    inside i Mem.destroy
    forget i

/-- Setting the components of container `k`. -/
def Arena.store {σ : Type} (A : Arena G1 G2 GT σ) (k : Nat) : Store G1 G2 GT σ := ⟨A.set k, A.buf⟩

/-! ## The schemes -/

section Bodies
variable {σ : Type} {q : Nat} [Fact q.Prime]
variable [AddCommGroup G1] [Module (ZMod q) G1] [AddCommGroup G2] [Module (ZMod q) G2] [AddCommGroup GT]
  [Module (ZMod q) GT]

/-- `getComponent` of an object. -/
abbrev Get (G1 G2 GT σ : Type) := Bytes → Mut σ (Obj G1 G2 GT)

/-- zcontextcpwaters.cpp:94-118. -/
def cpParams (st st' : Store G1 G2 GT σ) (env : Env G1 G2 GT) (r : ParamRand q G1 G2) : Mut σ Unit := do
  st.set b!"g1" (.g1 r.g1)
  st.set b!"g2" (.g2 r.g2)
  st.set b!"g1a" (.g1 (r.a • r.g1))
  st.set b!"A" (.gt (r.alpha • env.e r.g1 r.g2))
  st.set b!"k" (.bytes r.k)
  st'.set b!"alpha" (.zp r.alpha.val)
  st'.set b!"g2a" (.g2 (r.a • r.g2))

/-- zcontextkpgpsw.cpp:96-115. -/
def kpParams (st st' : Store G1 G2 GT σ) (env : Env G1 G2 GT) (r : ParamRand q G1 G2) : Mut σ Unit := do
  st.set b!"g1" (.g1 r.g1)
  st.set b!"g2" (.g2 r.g2)
  st.set b!"Y" (.gt (r.alpha • env.e r.g1 r.g2))
  st.set b!"k" (.bytes r.k)
  st'.set b!"y" (.zp r.alpha.val)

/-- zcontextcpwaters.cpp:167-196: `pub` and `sec` are the master keys. -/
def cpKeyBody (pub sec : Get G1 G2 GT σ) (st : Store G1 G2 GT σ) (env : Env G1 G2 GT) (c : Ctx G1 G2 GT) (l : AttrList)
    (t : ZMod q) : Mut σ Unit := do
  let k ← pub b!"k"
  st.set b!"input" (.attrs l)
  lift (usePairing c)
  let alpha ← sec b!"alpha"
  let alpha ← lift (deref (asZP alpha))
  let g2 ← pub b!"g2"
  let g2 ← lift (deref (asG2 g2))
  let g2a ← sec b!"g2a"
  let g2a ← lift (deref (asG2 g2a))
  st.set b!"K" (.g2 ((alpha : ZMod q) • g2 + t • g2a))
  let g2' ← pub b!"g2"
  let g2' ← lift (deref (asG2 g2'))
  st.set b!"L" (.g2 (t • g2'))
  Mem.cpKeyLoop st env (asBytes k) t l.attrs

/-- zcontextkpgpsw.cpp:178-190. -/
def kpKeyLoop (pub : Get G1 G2 GT σ) (st : Store G1 G2 GT σ) (env : Env G1 G2 GT) (k : Option Bytes) (r : Nat → ZMod q) :
    Nat → List (Bytes × (Bytes × ZMod q)) → Mut σ Unit
  | _, [] => lift (.ok ())
  | i, row :: rows => do
    let g1 ← pub b!"g1"
    let g1 ← lift (deref (asG1 g1))
    let kb ← lift (deref k)
    let g2 ← pub b!"g2"
    let g2 ← lift (deref (asG2 g2))
    st.set (elementLabel b!"D" (hashKey env.md row.1)) (.g1 (row.2.2 • g1 + r i • hashToG1 env kb row.2.1))
    st.set (elementLabel b!"d" (hashKey env.md row.1)) (.g2 (r i • g2))
    kpKeyLoop pub st env k r (i + 1) rows

/-- zcontextkpgpsw.cpp:161-190. -/
def kpKeyBody (pub sec : Get G1 G2 GT σ) (st : Store G1 G2 GT σ) (env : Env G1 G2 GT) (c : Ctx G1 G2 GT) (p : Policy)
    (tape r : Nat → ZMod q) : Mut σ Unit := do
  let k ← pub b!"k"
  st.set b!"input" (.bytes p.compact)
  let y ← sec b!"y"
  let y ← lift (deref (asZP y))
  let sh ← lift (shareSecret env.ndebug {} (some p) (y : ZMod q) tape)
  match sh.1.results with
  | [] => lift (.ok ())
  | rows => do
    lift (usePairing c)
    kpKeyLoop pub st env (asBytes k) r 0 rows

/-- `generateDecryptionKey` after the lookup of the master keys. -/
def keyBody (pub sec : Get G1 G2 GT σ) (st : Store G1 G2 GT σ) (env : Env G1 G2 GT) (sch : Scheme) (c : Ctx G1 G2 GT)
    (input : FInput) (r : Rand q) : Mut σ Unit :=
  match sch, input with
  | .cp, .attrs l => cpKeyBody pub sec st env c l r.x
  | .kp, .policy p => kpKeyBody pub sec st env c p r.tape r.r
  | _, _ => lift (.throw .invalidInput)

/-- zcontextcpwaters.cpp:268-281. -/
def cpEncLoop (pub : Get G1 G2 GT σ) (st : Store G1 G2 GT σ) (env : Env G1 G2 GT) (k : Option Bytes) (r : Nat → ZMod q) :
    Nat → List (Bytes × (Bytes × ZMod q)) → Mut σ Unit
  | _, [] => lift (.ok ())
  | i, row :: rows => do
    let g2 ← pub b!"g2"
    let g2 ← lift (deref (asG2 g2))
    st.set (elementLabel b!"D" (hashKey env.md row.1)) (.g2 (r i • g2))
    let kb ← lift (deref k)
    let g1a ← pub b!"g1a"
    let g1a ← lift (deref (asG1 g1a))
    st.set (elementLabel b!"C" (hashKey env.md row.1)) (.g1 (row.2.2 • g1a + (-(r i)) • hashToG1 env kb row.2.1))
    cpEncLoop pub st env k r (i + 1) rows

/-- zcontextcpwaters.cpp:243-284. -/
def cpEncBody (pub : Get G1 G2 GT σ) (st : Store G1 G2 GT σ) (env : Env G1 G2 GT) (c : Ctx G1 G2 GT) (p : Policy) (len : Nat)
    (r : Rand q) : Mut σ Bytes := do
  let k ← pub b!"k"
  lift (usePairing c)
  let A ← pub b!"A"
  let A ← lift (deref (asGT A))
  let sh ← lift (shareSecret env.ndebug {} (some p) r.x r.tape)
  st.set b!"policy" (.bytes p.compact)
  let g1 ← pub b!"g1"
  let g1 ← lift (deref (asG1 g1))
  st.set b!"Cprime" (.g1 (r.x • g1))
  cpEncLoop pub st env (asBytes k) r.r 0 sh.1.results
  Mem.symKey st env (r.x • A) len

/-- zcontextkpgpsw.cpp:235-260. -/
def kpEncBody (pub : Get G1 G2 GT σ) (st : Store G1 G2 GT σ) (env : Env G1 G2 GT) (c : Ctx G1 G2 GT) (l : AttrList) (len : Nat)
    (r : Rand q) : Mut σ Bytes := do
  let k ← pub b!"k"
  lift (usePairing c)
  let Y ← pub b!"Y"
  let Y ← lift (deref (asGT Y))
  let g2 ← pub b!"g2"
  let g2 ← lift (deref (asG2 g2))
  st.set b!"Cpr2" (.g2 (r.x • g2))
  Mem.kpEncLoop st env (asBytes k) r.x l.attrs
  st.set b!"attributes" (.attrs l)
  Mem.symKey st env (r.x • Y) len

/-- `encryptKEM` after the lookup of the public key. -/
def encBody (pub : Get G1 G2 GT σ) (st : Store G1 G2 GT σ) (env : Env G1 G2 GT) (sch : Scheme) (c : Ctx G1 G2 GT)
    (input : FInput) (r : Rand q) : Mut σ Bytes :=
  match sch, input with
  | .cp, .policy p => cpEncBody pub st env c p symKeyBytes r
  | .kp, .attrs l => kpEncBody pub st env c l symKeyBytes r
  | _, _ => lift (.throw .invalidInput)

/-- zcontextcpwaters.cpp:342-354: `key` is the decryption key, `ct` the ciphertext. -/
def cpDecLoop (key ct : Get G1 G2 GT σ) (env : Env G1 G2 GT) : List (Bytes × (Bytes × ZMod q)) → G1 → List (G1 × G2) →
    Mut σ (G1 × List (G1 × G2))
  | [], prod1, l => lift (.ok (prod1, l))
  | row :: rows, prod1, l => do
    let Kx ← key (elementLabel b!"KX" (hashKey env.md row.2.1))
    let Cx ← ct (elementLabel b!"C" (hashKey env.md row.1))
    let Cx ← lift (notNull (asG1 Cx))
    let Dx ← ct (elementLabel b!"D" (hashKey env.md row.1))
    let Dx ← lift (notNull (asG2 Dx))
    let Kx ← lift (deref (asG1 Kx))
    cpDecLoop key ct env rows (prod1 + row.2.2 • Cx) (l ++ [(row.2.2 • Kx, Dx)])

/-- zcontextcpwaters.cpp:318-370. -/
def cpDecBody (q : Nat) [Fact q.Prime] [Module (ZMod q) G1] (key ct : Get G1 G2 GT σ) (st : Store G1 G2 GT σ)
    (env : Env G1 G2 GT) (c : Ctx G1 G2 GT) (len : Nat) : Mut σ Bytes := do
  let inp ← key b!"input"
  let text ← ct b!"policy"
  let text ← lift (notNull (asBytes text))
  let pol ← lift (createPolicyTree env.mktime text)
  let attrs ← lift (castAttrs inp)
  let rec_ ← lift (recoverCoefficients (F := ZMod q) env.sort env.ndebug {} pol attrs.attrs)
  if rec_.1 = false then lift (.throw .decryptionFailed)
  else do
    let pl ← cpDecLoop key ct env rec_.2.1.results 0 []
    lift (usePairing c)
    let prodT ← lift (multiPairing env pl.2)
    let Cprime ← ct b!"Cprime"
    let K ← key b!"K"
    let L ← key b!"L"
    let Cprime ← lift (notNull (asG1 Cprime))
    let K ← lift (notNull (asG2 K))
    let L ← lift (notNull (asG2 L))
    Mem.symKey st env (env.e Cprime K - (prodT + env.e pl.1 L)) len

/-- zcontextkpgpsw.cpp:324-338. -/
def kpDecLoop (key ct : Get G1 G2 GT σ) (env : Env G1 G2 GT) : List (Bytes × (Bytes × ZMod q)) → G1 → List (G1 × G2) →
    Mut σ (G1 × List (G1 × G2))
  | [], prod1, l => lift (.ok (prod1, l))
  | row :: rows, prod1, l => do
    let Ci ← ct (elementLabel b!"C" (hashKey env.md row.2.1))
    let di ← key (elementLabel b!"d" (hashKey env.md row.1))
    let Di ← key (elementLabel b!"D" (hashKey env.md row.1))
    let Di ← lift (deref (asG1 Di))
    let Ci ← lift (deref (asG1 Ci))
    let di ← lift (deref (asG2 di))
    kpDecLoop key ct env rows (prod1 + row.2.2 • Di) (l ++ [(row.2.2 • Ci, di)])

/-- zcontextkpgpsw.cpp:297-347. -/
def kpDecBody (q : Nat) [Fact q.Prime] [Module (ZMod q) G1] (key ct : Get G1 G2 GT σ) (st : Store G1 G2 GT σ)
    (env : Env G1 G2 GT) (c : Ctx G1 G2 GT) (len : Nat) : Mut σ Bytes := do
  let text ← key b!"input"
  let text ← lift (notNull (asBytes text))
  let pol ← lift (createPolicyTree env.mktime text)
  let inp ← ct b!"attributes"
  let attrs ← lift (castAttrs inp)
  let rec_ ← lift (recoverCoefficients (F := ZMod q) env.sort env.ndebug {} pol attrs.attrs)
  if rec_.1 = false then lift (.throw .decryptionFailed)
  else do
    let pl ← kpDecLoop key ct env rec_.2.1.results 0 []
    lift (usePairing c)
    let prodT ← lift (multiPairing env pl.2)
    let Cpr2 ← ct b!"Cpr2"
    let Cpr2 ← lift (notNull (asG2 Cpr2))
    Mem.symKey st env (env.e pl.1 Cpr2 - prodT) len

/-- `decryptKEM` after the lookup of the key. -/
def decBody (q : Nat) [Fact q.Prime] [Module (ZMod q) G1] (key ct : Get G1 G2 GT σ) (st : Store G1 G2 GT σ)
    (env : Env G1 G2 GT) (sch : Scheme) (c : Ctx G1 G2 GT) : Mut σ Bytes :=
  match sch with
  | .cp => cpDecBody q key ct st env c symKeyBytes
  | .kp => kpDecBody q key ct st env c symKeyBytes

/-- zcontextabe.cpp:360-376: `decryptKEM`, then the masked plaintext. -/
def plainBody (q : Nat) [Fact q.Prime] [Module (ZMod q) G1] (key ct : Get G1 G2 GT σ) (st : Store G1 G2 GT σ)
    (env : Env G1 G2 GT) (sch : Scheme) (c : Ctx G1 G2 GT) : Mut σ Bytes := do
  let K ← decBody q key ct st env sch c
  let enc ← ct b!"_ED"
  let enc ← lift (notNull (asBytes enc))
  lift (BS.xorAssign enc (hashFromBytes env.md K enc.length schemeHashPrefix))

end Bodies

/-! ## The context -/

/-- A pointer to a key: the fields of the object other than the container (`hdr.comps` is not used), and its container. -/
structure HKey (G1 G2 GT : Type) where
  hdr : Key G1 G2 GT
  cont : Nat

/-- What a program with one context holds (include/abe/zcontext.h:49-73): the context, with pointers to keys, and ciphertext
objects. -/
structure Held (G1 G2 GT : Type) where
  alg : UInt8
  ready : Bool := false
  ks : KeyStore (HKey G1 G2 GT) := {}
  cts : Nat → Option (Ciphertext G1 G2 GT × Nat) := fun _ => none

/-- A call: memory and what the program holds. -/
abbrev Prog (G1 G2 GT σ α : Type) := Mut (σ × Held G1 G2 GT) α

section Context
variable {σ : Type}

/-- A part that only uses the memory. -/
def mem {α : Type} (m : Mut σ α) : Prog G1 G2 GT σ α := fun s => ((m s.1).1, (m s.1).2, s.2)

/-- A part that only uses what the program holds. -/
def look {α : Type} (f : Held G1 G2 GT → α × Held G1 G2 GT) : Prog G1 G2 GT σ α := fun s => (.ok (f s.2).1, s.1, (f s.2).2)

/-- `catch (OpenABE_ERROR &)`. -/
def attempt {α : Type} (m : Mut σ α) : Mut σ (Except Err α) := fun s => (caught (m s).1, (m s).2)

/-- An exception destroys the local objects. -/
def orElse {α : Type} (m : Mut σ α) (f : Mut σ Unit) : Mut σ α := fun s =>
  match m s with
  | (.throw e, s') =>
    match f s' with
    | (.ok (), s'') => (.throw e, s'')
    | (.throw e', s'') => (.throw e', s'')
    | (.ub, s'') => (.ub, s'')
    | (.abort, s'') => (.abort, s'')
  | (.ok a, s') => (.ok a, s')
  | (.ub, s') => (.ub, s')
  | (.abort, s') => (.abort, s')

/-- The containers of the keys in a map of pointers. -/
def keyConts (m : SMap (Option (HKey G1 G2 GT))) : List Nat := m.filterMap fun e => e.2.map (·.cont)

/-- The containers of the keys in a keystore. -/
def owners (ks : KeyStore (HKey G1 G2 GT)) : List Nat := keyConts ks.pub ++ keyConts ks.sec

/-- A `shared_ptr` outside the keystore goes: the key is destroyed when the keystore has no pointer to it
(src/abe/zcontainer.cpp:69-75). -/
def release (A : Arena G1 G2 GT σ) : Option (HKey G1 G2 GT) → Prog G1 G2 GT σ Unit
  | none => lift (.ok ())
  | some k => fun s => if k.cont ∈ owners s.2.ks then (.ok (), s) else mem (A.drop k.cont) s

/-- The pointer stored under a name. -/
def pointer (id : Bytes) (m : SMap (Option (HKey G1 G2 GT))) : Option (HKey G1 G2 GT) := (SMap.find id m).join

/-- zkeystore.cpp:98-110 `addKey`, at the end of the function that made the key. -/
def addKey (A : Arena G1 G2 GT σ) (id : Bytes) (k : HKey G1 G2 GT) (kind : KeyKind) : Prog G1 G2 GT σ Unit := do
  let old ← look fun w => ((match kind with
    | .pub => pointer id w.ks.pub
    | .sec => pointer id w.ks.sec
    | .other => none), { w with ks := w.ks.addKey id k kind })
  release A old
  release A (some k)

/-- zcontextabe.cpp:269-272, zkeystore.cpp:221-249 `deleteKey`. -/
def deleteKey (A : Arena G1 G2 GT σ) (id : Bytes) : Prog G1 G2 GT σ (Option Err) := do
  let r ← look fun w => (((w.ks.deleteKey id).1, pointer id w.ks.pub, pointer id w.ks.sec),
    { w with ks := (w.ks.deleteKey id).2 })
  release A r.2.1
  release A r.2.2
  lift (.ok r.1)

/-- zkeystore.cpp:160-170 `getPublicKey`. -/
def getPublicKey (id : Bytes) : Prog G1 G2 GT σ (Option (HKey G1 G2 GT)) :=
  look fun w => ((w.ks.getPublicKey id).1, { w with ks := (w.ks.getPublicKey id).2 })

/-- zkeystore.cpp:179-190 `getSecretKey`. -/
def getSecretKey (id : Bytes) : Prog G1 G2 GT σ (Option (HKey G1 G2 GT)) :=
  look fun w => ((w.ks.getSecretKey id).1, { w with ks := (w.ks.getSecretKey id).2 })

/-- zkeystore.cpp:120-136 `getKey`. -/
def getKey (id : Bytes) : Prog G1 G2 GT σ (Option (HKey G1 G2 GT)) :=
  look fun w => ((w.ks.getKey id).1, { w with ks := (w.ks.getKey id).2 })

/-- zkeystore.cpp:258-261 `validateNewParamsID`. -/
def validateNewParamsID (id : Bytes) : Prog G1 G2 GT σ Bool :=
  look fun w => ((w.ks.validateNewParamsID id).1, { w with ks := (w.ks.validateNewParamsID id).2 })

/-- The algorithm id and the pairing flag, as the bodies use them. -/
def ctx : Prog G1 G2 GT σ (Ctx G1 G2 GT) := look fun w => ({ alg := w.alg, ready := w.ready }, w)

/-- The pairing object is made (zcontextcpwaters.cpp:83-84, zcontextkpgpsw.cpp:85-86, zcontextabe.cpp:202-205). -/
def makePairing : Prog G1 G2 GT σ Unit := look fun w => ((), { w with ready := true })

/-- The ciphertext object `j`; it is made at the first use. -/
def slot (A : Arena G1 G2 GT σ) (j : Nat) : Prog G1 G2 GT σ (Ciphertext G1 G2 GT × Nat) := do
  match ← look fun w => (w.cts j, w) with
  | some x => lift (.ok x)
  | none => do
    let i ← mem A.new
    look fun w => ((({} : Ciphertext G1 G2 GT), i), { w with cts := fun n => if n = j then some ({}, i) else w.cts n })

/-- The new ciphertext object takes the place of the one in slot `j`, which is destroyed. -/
def putSlot (A : Arena G1 G2 GT σ) (j : Nat) (x : Ciphertext G1 G2 GT × Nat) : Prog G1 G2 GT σ Unit := do
  let old ← look fun w => (w.cts j, { w with cts := fun n => if n = j then some x else w.cts n })
  match old with
  | some y => mem (A.drop y.2)
  | none => lift (.ok ())

variable {q : Nat} [Fact q.Prime]
variable [AddCommGroup G1] [Module (ZMod q) G1] [AddCommGroup G2] [Module (ZMod q) G2] [AddCommGroup GT]
  [Module (ZMod q) GT]

/-- zcontextcpwaters.cpp:78-133, zcontextkpgpsw.cpp:80-126 `generateParams`. -/
def generateParams (A : Arena G1 G2 GT σ) (env : Env G1 G2 GT) (sch : Scheme) (mpkID mskID : Bytes) (r : ParamRand q G1 G2) :
    Prog G1 G2 GT σ (Option Err) := do
  makePairing
  let v1 ← validateNewParamsID mpkID
  if v1 = false then lift (.ok (some .invalidParamsId))
  else do
    let v2 ← validateNewParamsID mskID
    if v2 = false then lift (.ok (some .invalidParamsId))
    else do
      let c ← ctx
      let i ← mem A.new
      let j ← mem A.new
      mem (match sch with
        | .cp => cpParams (A.store i) (A.store j) env r
        | .kp => kpParams (A.store i) (A.store j) env r)
      addKey A mpkID ⟨newKey c.alg mpkID r.uid1 [], i⟩ .pub
      addKey A mskID ⟨newKey c.alg mskID r.uid2 [], j⟩ .sec
      lift (.ok none)

/-- zcontextcpwaters.cpp:148-209, zcontextkpgpsw.cpp:141-201 `generateDecryptionKey`. -/
def generateKey (A : Arena G1 G2 GT σ) (env : Env G1 G2 GT) (sch : Scheme) (input : FInput) (keyID mpkID mskID : Bytes)
    (r : Rand q) : Prog G1 G2 GT σ (Option Err) := do
  if Live.keyInput sch input = false then lift (.ok (some .invalidInput))
  else do
    let c ← ctx
    let mpk ← getPublicKey mpkID
    let msk ← getSecretKey mskID
    match mpk, msk with
    | some mpk, some msk => do
      let k ← mem A.new
      let res ← mem (attempt (orElse (keyBody (A.get mpk.cont) (A.get msk.cont) (A.store k) env sch c input r) (A.drop k)))
      match res with
      | .error e => lift (.ok (some e))
      | .ok () => do
        addKey A keyID ⟨newKey c.alg keyID r.uid [], k⟩ .sec
        lift (.ok none)
    | _, _ => lift (.ok (some .invalidParams))

/-- zcontextabe.cpp:309-339 `encrypt` after the lookup of the public key, into the new ciphertext `k`: the code of
`encryptKEM`, or the masked plaintext is added. -/
def encryptInto (A : Arena G1 G2 GT σ) (env : Env G1 G2 GT) (sch : Scheme) (c : Ctx G1 G2 GT) (pub k : Nat) (input : FInput)
    (plaintext : Bytes) (r : Rand q) : Mut σ (Option Err) := do
  let res ← attempt (encBody (A.get pub) (A.store k) env sch c input r)
  match res with
  | .error e => lift (.ok (some e))
  | .ok K => do
    let x ← lift (BS.xorAssign plaintext (hashFromBytes env.md K plaintext.length schemeHashPrefix))
    A.set k b!"_ED" (.bytes x)
    lift (.ok none)

/-- zcontextabe.cpp:309-339 `encrypt` into slot `j`. -/
def encrypt (A : Arena G1 G2 GT σ) (env : Env G1 G2 GT) (sch : Scheme) (j : Nat) (mpkID : Bytes) (input : FInput)
    (plaintext : Bytes) (r : Rand q) : Prog G1 G2 GT σ (Option Err) := do
  if Live.encInput sch input = false then lift (.ok (some .invalidInput))
  else do
    let c ← ctx
    let mpk ← getPublicKey mpkID
    match mpk with
    | none => lift (.ok (some .invalidParams))
    | some mpk => do
      let k ← mem A.new
      let res ← mem (orElse (encryptInto A env sch c mpk.cont k input plaintext r) (A.drop k))
      match res with
      | some e => do
        mem (A.drop k)
        lift (.ok (some e))
      | none => do
        putSlot A j ({ ({} : Ciphertext G1 G2 GT) with alg := c.alg }, k)
        lift (.ok none)

/-- zcontextabe.cpp:352-385 `decrypt` of slot `j`. -/
def decrypt (q : Nat) [Fact q.Prime] [Module (ZMod q) G1] (A : Arena G1 G2 GT σ) (env : Env G1 G2 GT) (sch : Scheme)
    (keyID : Bytes) (j : Nat) : Prog G1 G2 GT σ (Option Err × Bytes) := do
  let ct ← slot A j
  let c ← ctx
  let key ← getSecretKey keyID
  match key with
  | none => lift (.ok (some .invalidInput, []))
  | some key => do
    let res ← mem (attempt (plainBody q (A.get key.cont) (A.get ct.2) (A.store ct.2) env sch c))
    match res with
    | .error e => lift (.ok (some e, []))
    | .ok p => lift (.ok (none, p))

omit [Fact (Nat.Prime q)] [AddCommGroup G1] [Module (ZMod q) G1] [AddCommGroup G2] [Module (ZMod q) G2] [AddCommGroup GT]
  [Module (ZMod q) GT]

/-- zcontextabe.cpp:141-150 `getHashKey`, and the caller reads the bytes at once. -/
def getHashKey (A : Arena G1 G2 GT σ) (mpkID : Bytes) : Prog G1 G2 GT σ (Option Bytes) := do
  let mpk ← getPublicKey mpkID
  match mpk with
  | none => lift (.throw .invalidParams)
  | some mpk => do
    let o ← mem (A.get mpk.cont b!"k")
    lift (.ok (asBytes o))

/-- zcontextabe.cpp:160-181 `exportKey`, zkey.cpp:109-126 `exportKeyToBytes`. -/
def exportKey (A : Arena G1 G2 GT σ) (keyID : Bytes) : Prog G1 G2 GT σ (Except Err Bytes) := do
  let key ← getKey keyID
  match key with
  | none => lift (.ok (.error .invalidInput))
  | some key => do
    let res ← mem (attempt (A.write key.cont))
    match res with
    | .error _ => lift (.ok (.error .invalidInput))
    | .ok body => lift (.ok (.ok (BS.pack (BS.pack [] key.hdr.header) body)))

/-- zcontextabe.cpp:193-218 `loadKey`. -/
def loadKey (A : Arena G1 G2 GT σ) (mk : Mktime) (cd : Codec G1 G2 GT) (id blob rnd : Bytes) (kind : KeyKind) :
    Prog G1 G2 GT σ (Option Err) := do
  let hb ← lift (Key.parseHeader blob rnd : Res (Key G1 G2 GT × Bytes))
  makePairing
  let c ← ctx
  if hb.1.alg ≠ c.alg then lift (.ok (some .invalidKeyHeader))
  else do
    let k ← mem A.new
    mem (orElse (Mem.load (A.store k) mk cd hb.2) (A.drop k))
    addKey A id ⟨hb.1, k⟩ kind
    lift (.ok none)

/-- zciphertext.cpp:92-111 `exportToBytes` of slot `j`. -/
def exportCt (A : Arena G1 G2 GT σ) (j : Nat) : Prog G1 G2 GT σ Bytes := do
  let ct ← slot A j
  let body ← mem (A.write ct.2)
  lift (.ok (BS.smartPack (BS.smartPack [] ct.1.header) body))

/-- zciphertext.cpp:117-152 `loadFromBytes`, what comes before the container: the fields of the header and the body. -/
def ctHeader (input : Bytes) : Res (Ciphertext G1 G2 GT × Bytes) :=
  let hdrLen := uidLen + 2
  if input.length < hdrLen then .throw .invalidInput
  else do
    let (hdr, i) ← BS.smartUnpack input 0
    if hdr.length = hdrLen then do
      let v ← BS.atR hdr 0
      if libraryVersion < v then .throw .invalidLibversion
      else do
        let a ← BS.atR hdr 1
        let alg ← getSchemeID a
        let uid := BS.getSubset hdr 2 uidLen
        let (body, _) ← BS.smartUnpack input i
        if body.length = 0 then .throw .invalidCiphertextBody
        else .ok ({ version := v, alg := alg, uid := uid }, body)
    else .throw .invalidCiphertextHeader

/-- zciphertext.cpp:117-152 `loadFromBytes` into slot `j`. -/
def loadCt (A : Arena G1 G2 GT σ) (mk : Mktime) (cd : Codec G1 G2 GT) (j : Nat) (blob : Bytes) : Prog G1 G2 GT σ Unit := do
  let hb ← lift (ctHeader blob : Res (Ciphertext G1 G2 GT × Bytes))
  let k ← mem A.new
  mem (orElse (Mem.load (A.store k) mk cd hb.2) (A.drop k))
  putSlot A j (hb.1, k)

end Context

/-! ## Programs -/

section Programs
variable {σ : Type} {q : Nat} [Fact q.Prime]
variable [AddCommGroup G1] [Module (ZMod q) G1] [AddCommGroup G2] [Module (ZMod q) G2] [AddCommGroup GT]
  [Module (ZMod q) GT]

/-- What a call returns, as `Out`. -/
def ret {α : Type} (m : Prog G1 G2 GT σ α) (f : α → Live.Out) : Prog G1 G2 GT σ Live.Out := do
  let a ← m
  lift (.ok (f a))

/-- One call (zcontextabe.cpp:102-385). -/
def step (A : Arena G1 G2 GT σ) (env : Env G1 G2 GT) (cd : Codec G1 G2 GT) (sch : Scheme) : Live.Call q G1 G2 →
    Prog G1 G2 GT σ Live.Out
  | .params mpkID mskID r => ret (generateParams A env sch mpkID mskID r) .code
  | .keygen input keyID mpkID mskID r => ret (generateKey A env sch input keyID mpkID mskID r) .code
  | .encrypt j mpkID input plaintext r => ret (encrypt A env sch j mpkID input plaintext r) .code
  | .decrypt keyID j => ret (decrypt q A env sch keyID j) fun x => .plain x.1 x.2
  | .hashKey mpkID => ret (getHashKey A mpkID) .hash
  | .exportKey id => ret (exportKey A id) .blob
  | .loadKey id blob rnd kind => ret (loadKey A env.mktime cd id blob rnd kind) .code
  | .deleteKey id => ret (deleteKey A id) .code
  | .check id => look fun w => (.found (w.ks.checkSecretKey id), w)
  | .exportCt j => ret (exportCt A j) fun b => .blob (.ok b)
  | .loadCt j blob => ret (loadCt A env.mktime cd j blob) fun _ => .code none

/-- A history of calls. It ends at a call that is undefined or ends the process. -/
def run (A : Arena G1 G2 GT σ) (env : Env G1 G2 GT) (cd : Codec G1 G2 GT) (sch : Scheme) (s : σ × Held G1 G2 GT) :
    List (Live.Call q G1 G2) → List (Res Live.Out) × (σ × Held G1 G2 GT)
  | [] => ([], s)
  | c :: cs =>
    match step A env cd sch c s with
    | (.ok a, s') => ((.ok a) :: (run A env cd sch s' cs).1, (run A env cd sch s' cs).2)
    | (.throw e, s') => ((.throw e) :: (run A env cd sch s' cs).1, (run A env cd sch s' cs).2)
    | (r, s') => ([r], s')

omit [Fact (Nat.Prime q)] [AddCommGroup G1] [Module (ZMod q) G1] [AddCommGroup G2] [Module (ZMod q) G2] [AddCommGroup GT]
  [Module (ZMod q) GT]

/-- Destroying several objects. -/
def dropAll (A : Arena G1 G2 GT σ) : List Nat → Mut σ Unit
  | [] => lift (.ok ())
  | i :: l => do
    A.drop i
    dropAll A l

/-- The containers of the keys and of the first `n` ciphertexts. -/
def held (n : Nat) (w : Held G1 G2 GT) : List Nat := owners w.ks ++ (List.range n).filterMap fun j => (w.cts j).map (·.2)

/-- The program ends: the destructor of the keystore (zkeystore.cpp:67-88) and those of the first `n` ciphertext objects. -/
def close (A : Arena G1 G2 GT σ) (n : Nat) : Prog G1 G2 GT σ Unit := do
  let l ← look fun w => (held n w, { w with ks := {}, cts := fun _ => none })
  mem (dropAll A l)

end Programs

/-! ## The pointer of `getHashKey` -/

/-- zcontextabe.cpp:141-150 `getHashKey`: the pointer that it returns, `none` when there is no key or no component. -/
def hashPointer (w : Mem.World G1 G2 GT) (ks : KeyStore (HKey G1 G2 GT)) (mpkID : Bytes) : Option Nat :=
  match pointer mpkID ks.pub with
  | none => none
  | some k => match (w.conts[k.cont]?).join with
    | none => none
    | some d => (SMap.find b!"k" d).join

end Cm
end Abe
