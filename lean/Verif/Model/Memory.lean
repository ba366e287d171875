import Verif.Model.SchemeObjects
/-!
# The memory of containers (src/abe/zcontainer.cpp, src/lsss/zelement_bp.cpp, schemes/*.cpp)

Model/Container treats the components of a container as values. Here `val` is what it is in the code, a map from names to
pointers: `setComponent` stores a pointer to a clone made with `new`, the destructor releases what the map points to at that
time, and writing a group element allocates a buffer with `malloc`.

The parts of the schemes that fill a key or a ciphertext are written once, over an interface `Store` with the two things they
do to memory, and are run on pointers (`onHeap`) and on values (`onValues`).

Simplified: allocation does not fail; the temporary objects of `deserializeElement` (held by `unique_ptr`) and the other
local objects are values; the keys that an operation reads are values. The memory of the parser is in Model/ParserHeap.
-/
set_option autoImplicit false
namespace Abe
namespace Mem
open Live (Mut lift)
variable {G1 G2 GT : Type}

/-! ## The heap -/

/-- What `new` and `malloc` hand out: a component object or a buffer of bytes. -/
inductive Cell (G1 G2 GT : Type)
  | obj (o : Obj G1 G2 GT)
  | buf (b : Bytes)

/-- The heap. A released cell is never used again. -/
structure Heap (G1 G2 GT : Type) where
  cells : List (Option (Cell G1 G2 GT)) := []

/-- What is at an address. -/
def Heap.get (h : Heap G1 G2 GT) (a : Nat) : Option (Cell G1 G2 GT) := (h.cells[a]?).join

/-- Everything that was handed out and not released. -/
def Heap.live (h : Heap G1 G2 GT) : List (Cell G1 G2 GT) := h.cells.filterMap id

/-- `new`, `malloc`. -/
def Heap.alloc (h : Heap G1 G2 GT) (x : Cell G1 G2 GT) : Nat × Heap G1 G2 GT := (h.cells.length, ⟨h.cells ++ [some x]⟩)

/-- `delete`: undefined for an address with nothing at it. -/
def Heap.free (h : Heap G1 G2 GT) (a : Nat) : Res (Heap G1 G2 GT) :=
  match h.get a with
  | some _ => .ok ⟨h.cells.set a none⟩
  | none => .ub

/-- The object behind a pointer; there has to be one. -/
def Heap.load (h : Heap G1 G2 GT) : Option Nat → Res (Obj G1 G2 GT)
  | none => .ub
  | some a => match h.get a with
    | some (.obj o) => .ok o
    | _ => .ub

/-- `OpenABEContainer::val` (include/abe/zcontainer.h:50), `none` is the null pointer. -/
abbrev Ptrs := SMap (Option Nat)

/-- The heap and one container. -/
abbrev State (G1 G2 GT : Type) := Heap G1 G2 GT × Ptrs

/-! ## One container -/

/-- zcontainer.cpp:84-88 `setComponent`: the clone (the default `clone` of include/lsss/zobject.h:57 returns the null
pointer) and the assignment. A pointer that was stored under the name is overwritten. -/
def setComponent (name : Bytes) (o : Obj G1 G2 GT) : Mut (State G1 G2 GT) Unit := fun s =>
  match o.clone with
  | .ok .null => (.ok (), s.1, SMap.insert name none s.2)
  | .ok x => (.ok (), (s.1.alloc (.obj x)).2, SMap.insert name (some (s.1.alloc (.obj x)).1) s.2)
  | .throw e => (.throw e, s)
  | .ub => (.ub, s)
  | .abort => (.abort, s)

/-- zcontainer.cpp:97-106 `getComponent`, with a read of the object. -/
def getComponent (name : Bytes) : Mut (State G1 G2 GT) (Obj G1 G2 GT) := fun s =>
  match SMap.find name s.2 with
  | none => (.throw .elementNotFound, s.1, SMap.insert name none s.2)
  | some none => (.throw .elementNotFound, s)
  | some p => (s.1.load p, s)

/-- zcontainer.cpp:108-116 `deleteComponent`: the entry goes, the object stays. -/
def deleteComponent (name : Bytes) : Mut (State G1 G2 GT) Bool := fun s =>
  if (SMap.find name s.2).isSome then (.ok true, s.1, SMap.erase name s.2) else (.ok false, s)

/-- zcontainer.cpp:71-73, the loop of the destructor; `delete` of the null pointer does nothing. -/
def destroyLoop (h : Heap G1 G2 GT) : Ptrs → Res (Heap G1 G2 GT)
  | [] => .ok h
  | (_, none) :: d => destroyLoop h d
  | (_, some a) :: d => do
    let h' ← h.free a
    destroyLoop h' d

/-- zcontainer.cpp:69-75, the destructor. -/
def destroy : Mut (State G1 G2 GT) Unit := fun s =>
  match destroyLoop s.1 s.2 with
  | .ok h => (.ok (), h, [])
  | .throw e => (.throw e, s)
  | .ub => (.ub, s)
  | .abort => (.abort, s)

/-- The buffer that `serialize` of an object allocates and does not release: `getBytes` (zelement_bp.cpp:540-546, 706-712,
851-857) in `G1::serialize` (553), `G2::serialize` (719) and `GT::serialize` (864). -/
def written (cd : Codec G1 G2 GT) : Obj G1 G2 GT → Option Bytes
  | .g1 x => some (cd.w1 x)
  | .g2 x => some (cd.w2 x)
  | .gt x => some (cd.wT x)
  | _ => none

/-- The `serialize` of one object. -/
def writeObj (cd : Codec G1 G2 GT) (h : Heap G1 G2 GT) (o : Obj G1 G2 GT) : Res Bytes × Heap G1 G2 GT :=
  (o.serialize cd, match written cd o with
    | some b => (h.alloc (.buf b)).2
    | none => h)

/-- zcontainer.cpp:135-144 `serialize`, the loop; `acc` is what has been written. -/
def serializeLoop (cd : Codec G1 G2 GT) (h : Heap G1 G2 GT) (acc : Bytes) : Ptrs → Res Bytes × Heap G1 G2 GT
  | [] => (.ok acc, h)
  | (k, p) :: d =>
    match h.load p with
    | .ok o =>
      match writeObj cd h o with
      | (.ok b, h') => serializeLoop cd h' (acc ++ BS.smartPack (BS.smartPack [] k) b) d
      | (r, h') => (r, h')
    | .throw e => (.throw e, h)
    | .ub => (.ub, h)
    | .abort => (.abort, h)

/-- zcontainer.cpp:135-144 `serialize` into an empty `result`. -/
def serialize (cd : Codec G1 G2 GT) : Mut (State G1 G2 GT) Bytes := fun s =>
  ((serializeLoop cd s.1 [] s.2).1, (serializeLoop cd s.1 [] s.2).2, s.2)

/-! ## Filling a container -/

/-- What an operation that fills a container does to memory: it sets a component, and it allocates a buffer that it does not
release. -/
structure Store (G1 G2 GT σ : Type) where
  set : Bytes → Obj G1 G2 GT → Mut σ Unit
  buf : Bytes → Mut σ Unit

/-- On pointers. -/
def onHeap : Store G1 G2 GT (State G1 G2 GT) where
  set := setComponent
  buf b := fun s => (.ok (), (s.1.alloc (.buf b)).2, s.2)

/-- On values, as in Model/Container. -/
def onValues : Store G1 G2 GT (Container G1 G2 GT) where
  set name o := fun c =>
    match Container.setComponent c name o with
    | .ok c' => (.ok (), c')
    | .throw e => (.throw e, c)
    | .ub => (.ub, c)
    | .abort => (.abort, c)
  buf _ := fun c => (.ok (), c)

section Fill
variable {σ : Type}

/-- zcontainer.cpp:208-219 `deserialize`, the loop, with zcontainer.cpp:146-206 `deserializeElement`; what was read before an
error stays in the container. -/
def loadLoop (st : Store G1 G2 GT σ) (mk : Mktime) (cd : Codec G1 G2 GT) (blob : Bytes) : Nat → Nat → Mut σ Unit
  | 0, _ => lift .abort
  | fuel + 1, index => do
    let key ← lift (BS.smartUnpack blob index)
    let value ← lift (BS.smartUnpack blob key.2)
    let o ← lift (Container.readObj mk cd value.1)
    match o with
    | none => lift (.ok ())
    | some o => st.set key.1 o
    if value.2 < blob.length then loadLoop st mk cd blob fuel value.2 else lift (.ok ())

/-- zcontainer.cpp:208-219 `deserialize`. -/
def load (st : Store G1 G2 GT σ) (mk : Mktime) (cd : Codec G1 G2 GT) (blob : Bytes) : Mut σ Unit :=
  loadLoop st mk cd blob (blob.length + 1) 0

open Scheme
variable {q : Nat} [Fact q.Prime]
variable [AddCommGroup G1] [Module (ZMod q) G1] [AddCommGroup G2] [Module (ZMod q) G2] [AddCommGroup GT]
  [Module (ZMod q) GT]

/-- zelement_bp.cpp:775-783 `GT::hashToBytes` writes the element (864), then zsymkey.cpp:151-163 `hashToSymmetricKey`. -/
def symKey (st : Store G1 G2 GT σ) (env : Env G1 G2 GT) (x : GT) (len : Nat) : Mut σ Bytes := do
  st.buf (env.wT x)
  lift (symKeyOf env x len)

/-- zcontextcpwaters.cpp:190-196. -/
def cpKeyLoop (st : Store G1 G2 GT σ) (env : Env G1 G2 GT) (k : Option Bytes) (t : ZMod q) : List Bytes → Mut σ Unit
  | [] => lift (.ok ())
  | a :: as => do
    let kb ← lift (deref k)
    st.set (elementLabel b!"KX" (hashKey env.md a)) (.g1 (t • hashToG1 env kb a))
    cpKeyLoop st env k t as

/-- zcontextcpwaters.cpp:167-196: the decryption key. -/
def cpKeyBody (st : Store G1 G2 GT σ) (env : Env G1 G2 GT) (c : Ctx G1 G2 GT) (mpk msk : Key G1 G2 GT) (l : AttrList)
    (t : ZMod q) : Mut σ Unit := do
  let k ← lift (getBytes mpk.comps b!"k")
  st.set b!"input" (.attrs l)
  lift (usePairing c)
  let alpha ← lift (getZP msk.comps b!"alpha")
  let alpha ← lift (deref alpha)
  let g2 ← lift (getG2 mpk.comps b!"g2")
  let g2 ← lift (deref g2)
  let g2a ← lift (getG2 msk.comps b!"g2a")
  let g2a ← lift (deref g2a)
  st.set b!"K" (.g2 ((alpha : ZMod q) • g2 + t • g2a))
  let g2' ← lift (getG2 mpk.comps b!"g2")
  let g2' ← lift (deref g2')
  st.set b!"L" (.g2 (t • g2'))
  cpKeyLoop st env k t l.attrs

/-- zcontextkpgpsw.cpp:178-190. -/
def kpKeyLoop (st : Store G1 G2 GT σ) (env : Env G1 G2 GT) (mpk : Key G1 G2 GT) (k : Option Bytes) (r : Nat → ZMod q) :
    Nat → List (Bytes × (Bytes × ZMod q)) → Mut σ Unit
  | _, [] => lift (.ok ())
  | i, row :: rows => do
    let g1 ← lift (getG1 mpk.comps b!"g1")
    let g1 ← lift (deref g1)
    let kb ← lift (deref k)
    let g2 ← lift (getG2 mpk.comps b!"g2")
    let g2 ← lift (deref g2)
    st.set (elementLabel b!"D" (hashKey env.md row.1)) (.g1 (row.2.2 • g1 + r i • hashToG1 env kb row.2.1))
    st.set (elementLabel b!"d" (hashKey env.md row.1)) (.g2 (r i • g2))
    kpKeyLoop st env mpk k r (i + 1) rows

/-- zcontextkpgpsw.cpp:161-190. -/
def kpKeyBody (st : Store G1 G2 GT σ) (env : Env G1 G2 GT) (c : Ctx G1 G2 GT) (mpk msk : Key G1 G2 GT) (p : Policy)
    (tape r : Nat → ZMod q) : Mut σ Unit := do
  let k ← lift (getBytes mpk.comps b!"k")
  st.set b!"input" (.bytes p.compact)
  let y ← lift (getZP msk.comps b!"y")
  let y ← lift (deref y)
  let sh ← lift (shareSecret env.ndebug {} (some p) (y : ZMod q) tape)
  match sh.1.results with
  | [] => lift (.ok ())
  | rows => do
    lift (usePairing c)
    kpKeyLoop st env mpk k r 0 rows

/-- zcontextcpwaters.cpp:268-281. -/
def cpEncLoop (st : Store G1 G2 GT σ) (env : Env G1 G2 GT) (mpk : Key G1 G2 GT) (k : Option Bytes) (r : Nat → ZMod q) :
    Nat → List (Bytes × (Bytes × ZMod q)) → Mut σ Unit
  | _, [] => lift (.ok ())
  | i, row :: rows => do
    let g2 ← lift (getG2 mpk.comps b!"g2")
    let g2 ← lift (deref g2)
    st.set (elementLabel b!"D" (hashKey env.md row.1)) (.g2 (r i • g2))
    let kb ← lift (deref k)
    let g1a ← lift (getG1 mpk.comps b!"g1a")
    let g1a ← lift (deref g1a)
    st.set (elementLabel b!"C" (hashKey env.md row.1)) (.g1 (row.2.2 • g1a + (-(r i)) • hashToG1 env kb row.2.1))
    cpEncLoop st env mpk k r (i + 1) rows

/-- zcontextcpwaters.cpp:243-284: the key; the ciphertext is the container. -/
def cpEncBody (st : Store G1 G2 GT σ) (env : Env G1 G2 GT) (c : Ctx G1 G2 GT) (mpk : Key G1 G2 GT) (p : Policy) (len : Nat)
    (r : Rand q) : Mut σ Bytes := do
  let k ← lift (getBytes mpk.comps b!"k")
  lift (usePairing c)
  let A ← lift (getGT mpk.comps b!"A")
  let A ← lift (deref A)
  let sh ← lift (shareSecret env.ndebug {} (some p) r.x r.tape)
  st.set b!"policy" (.bytes p.compact)
  let g1 ← lift (getG1 mpk.comps b!"g1")
  let g1 ← lift (deref g1)
  st.set b!"Cprime" (.g1 (r.x • g1))
  cpEncLoop st env mpk k r.r 0 sh.1.results
  symKey st env (r.x • A) len

/-- zcontextkpgpsw.cpp:247-253. -/
def kpEncLoop (st : Store G1 G2 GT σ) (env : Env G1 G2 GT) (k : Option Bytes) (t : ZMod q) : List Bytes → Mut σ Unit
  | [] => lift (.ok ())
  | a :: as => do
    let kb ← lift (deref k)
    st.set (elementLabel b!"C" (hashKey env.md a)) (.g1 (t • hashToG1 env kb a))
    kpEncLoop st env k t as

/-- zcontextkpgpsw.cpp:235-260. -/
def kpEncBody (st : Store G1 G2 GT σ) (env : Env G1 G2 GT) (c : Ctx G1 G2 GT) (mpk : Key G1 G2 GT) (l : AttrList) (len : Nat)
    (r : Rand q) : Mut σ Bytes := do
  let k ← lift (getBytes mpk.comps b!"k")
  lift (usePairing c)
  let Y ← lift (getGT mpk.comps b!"Y")
  let Y ← lift (deref Y)
  let g2 ← lift (getG2 mpk.comps b!"g2")
  let g2 ← lift (deref g2)
  st.set b!"Cpr2" (.g2 (r.x • g2))
  kpEncLoop st env k r.x l.attrs
  st.set b!"attributes" (.attrs l)
  symKey st env (r.x • Y) len

/-- zcontextabe.cpp:309-339 `encrypt` after the lookup of the public key: `encryptKEM`, then the masked plaintext is added. -/
def encryptBody (st : Store G1 G2 GT σ) (env : Env G1 G2 GT) (c : Ctx G1 G2 GT) (mpk : Key G1 G2 GT) (sch : Scheme)
    (input : FInput) (plaintext : Bytes) (r : Rand q) : Mut σ Unit := do
  let K ← match sch, input with
    | .cp, .policy p => cpEncBody st env c mpk p symKeyBytes r
    | .kp, .attrs l => kpEncBody st env c mpk l symKeyBytes r
    | _, _ => lift (.throw .invalidInput)
  let x ← lift (BS.xorAssign plaintext (hashFromBytes env.md K plaintext.length schemeHashPrefix))
  st.set b!"_ED" (.bytes x)

/-- `generateDecryptionKey` after the lookup of the master keys (zcontextcpwaters.cpp:167-196, zcontextkpgpsw.cpp:161-190). -/
def keyBody (st : Store G1 G2 GT σ) (env : Env G1 G2 GT) (c : Ctx G1 G2 GT) (mpk msk : Key G1 G2 GT) (sch : Scheme)
    (input : FInput) (r : Rand q) : Mut σ Unit :=
  match sch, input with
  | .cp, .attrs l => cpKeyBody st env c mpk msk l r.x
  | .kp, .policy p => kpKeyBody st env c mpk msk p r.tape r.r
  | _, _ => lift (.throw .invalidInput)

end Fill

/-! ## Any number of containers -/

/-- A call on containers; they are numbered in the order of their creation. -/
inductive Call (G1 G2 GT : Type)
  | create
  | set (i : Nat) (name : Bytes) (o : Obj G1 G2 GT)
  | get (i : Nat) (name : Bytes)
  | delete (i : Nat) (name : Bytes)
  | write (i : Nat)
  | read (i : Nat) (blob : Bytes)
  | destroy (i : Nat)

/-- What a call returns. -/
inductive Ans (G1 G2 GT : Type)
  | done
  | obj (o : Obj G1 G2 GT)
  | flag (b : Bool)
  | bytes (b : Bytes)

/-- The heap and the containers, `none` when destroyed. -/
structure World (G1 G2 GT : Type) where
  heap : Heap G1 G2 GT := {}
  conts : List (Option Ptrs) := []

/-- The answer made from what a call returns. -/
def answer {α : Type} (f : α → Ans G1 G2 GT) : Res α → Res (Ans G1 G2 GT)
  | .ok a => .ok (f a)
  | .throw e => .throw e
  | .ub => .ub
  | .abort => .abort

/-- A call on container `i`; undefined when it does not exist. -/
def World.on {α : Type} (w : World G1 G2 GT) (i : Nat) (m : Mut (State G1 G2 GT) α) (f : α → Ans G1 G2 GT) :
    Res (Ans G1 G2 GT) × World G1 G2 GT :=
  match (w.conts[i]?).join with
  | none => (.ub, w)
  | some d => (answer f (m (w.heap, d)).1, ⟨(m (w.heap, d)).2.1, w.conts.set i (some (m (w.heap, d)).2.2)⟩)

/-- One call. -/
def World.step (mk : Mktime) (cd : Codec G1 G2 GT) (w : World G1 G2 GT) : Call G1 G2 GT → Res (Ans G1 G2 GT) × World G1 G2 GT
  | .create => (.ok .done, { w with conts := w.conts ++ [some []] })
  | .set i name o => w.on i (setComponent name o) fun _ => .done
  | .get i name => w.on i (getComponent name) .obj
  | .delete i name => w.on i (deleteComponent name) .flag
  | .write i => w.on i (serialize cd) .bytes
  | .read i blob => w.on i (load onHeap mk cd blob) fun _ => .done
  | .destroy i =>
    let r := w.on i destroy fun _ => .done
    match r.1 with
    | .ok a => (.ok a, { r.2 with conts := r.2.conts.set i none })
    | _ => r

/-- A history of calls. It ends at a call that is undefined or ends the process. -/
def World.run (mk : Mktime) (cd : Codec G1 G2 GT) (w : World G1 G2 GT) : List (Call G1 G2 GT) →
    List (Res (Ans G1 G2 GT)) × World G1 G2 GT
  | [] => ([], w)
  | c :: cs =>
    match w.step mk cd c with
    | (.ok a, w') => ((.ok a) :: (w'.run mk cd cs).1, (w'.run mk cd cs).2)
    | (.throw e, w') => ((.throw e) :: (w'.run mk cd cs).1, (w'.run mk cd cs).2)
    | (r, w') => ([r], w')

/-- The copy constructor of `OpenABEContainer` that the compiler generates (include/abe/zcontainer.h:48-86 declares none):
the map is copied, and with it the pointers. -/
def World.copy (w : World G1 G2 GT) (i : Nat) : World G1 G2 GT := { w with conts := w.conts ++ [(w.conts[i]?).join] }

end Mem
end Abe
