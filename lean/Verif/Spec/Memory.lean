import Verif.Model.Memory
/-!
# What containers leave behind

Containers as values, and for each call the memory that nothing points to afterwards.
-/
set_option autoImplicit false
namespace Abe
namespace Mem
open Live (Mut lift)
variable {G1 G2 GT : Type}

/-- The object that `clone` gives, where the null pointer is the clone of a policy. -/
def stored : Obj G1 G2 GT → Obj G1 G2 GT
  | .policy _ => .null
  | o => o

/-- An object that exists. -/
def one : Obj G1 G2 GT → List (Cell G1 G2 GT)
  | .null => []
  | o => [.obj o]

/-- The objects of a container. -/
def objs (c : Container G1 G2 GT) : List (Cell G1 G2 GT) := c.flatMap fun e => one e.2

/-- The object stored under a name. -/
def under (c : Container G1 G2 GT) (name : Bytes) : List (Cell G1 G2 GT) :=
  match SMap.find name c with
  | none => []
  | some o => one o

/-- The objects that are overwritten when the components are set one after the other. -/
def overwritten (c : Container G1 G2 GT) : List (Bytes × Obj G1 G2 GT) → List (Cell G1 G2 GT)
  | [] => []
  | (n, o) :: l => under c n ++ overwritten (SMap.insert n (stored o) c) l

/-- The components that a blob sets, up to the first one that cannot be read. -/
def entries (mk : Mktime) (cd : Codec G1 G2 GT) (blob : Bytes) : Nat → Nat → List (Bytes × Obj G1 G2 GT)
  | 0, _ => []
  | fuel + 1, index =>
    match BS.smartUnpack blob index with
    | .ok key =>
      match BS.smartUnpack blob key.2 with
      | .ok value =>
        match Container.readObj mk cd value.1 with
        | .ok o =>
          (o.toList.map fun x => (key.1, x)) ++
            (if value.2 < blob.length then entries mk cd blob fuel value.2 else [])
        | _ => []
      | _ => []
    | _ => []

/-- The buffers of a container that is written: one for each group element, up to the first null entry. -/
def buffers (cd : Codec G1 G2 GT) : Container G1 G2 GT → List (Cell G1 G2 GT)
  | [] => []
  | (_, .null) :: _ => []
  | (_, .g1 x) :: c => .buf (cd.w1 x) :: buffers cd c
  | (_, .g2 x) :: c => .buf (cd.w2 x) :: buffers cd c
  | (_, .gt x) :: c => .buf (cd.wT x) :: buffers cd c
  | _ :: c => buffers cd c

/-- Containers as values. -/
abbrev Values (G1 G2 GT : Type) := List (Option (Container G1 G2 GT))

/-- The container `i`. -/
def at_ (w : Values G1 G2 GT) (i : Nat) : Option (Container G1 G2 GT) := (w[i]?).join

/-- One call on values, with the functions of Model/Container. -/
def step (mk : Mktime) (cd : Codec G1 G2 GT) (w : Values G1 G2 GT) : Call G1 G2 GT → Res (Ans G1 G2 GT) × Values G1 G2 GT
  | .create => (.ok .done, w ++ [some []])
  | .set i name o =>
    match at_ w i with
    | none => (.ub, w)
    | some c => match Container.setComponent c name o with
      | .ok c' => (.ok .done, w.set i (some c'))
      | r => (answer (fun _ => .done) r, w)
  | .get i name =>
    match at_ w i with
    | none => (.ub, w)
    | some c => (answer .obj (Container.getComponent c name).1, w.set i (some (Container.getComponent c name).2))
  | .delete i name =>
    match at_ w i with
    | none => (.ub, w)
    | some c => (.ok (.flag (Container.deleteComponent c name).1), w.set i (some (Container.deleteComponent c name).2))
  | .write i =>
    match at_ w i with
    | none => (.ub, w)
    | some c => (answer .bytes (Container.serialize cd c), w)
  | .read i blob =>
    match at_ w i with
    | none => (.ub, w)
    | some c => (answer (fun _ => .done) (Container.deserialize mk cd c blob),
        w.set i (some ((entries mk cd blob (blob.length + 1) 0).foldl (fun c e => SMap.insert e.1 (stored e.2) c) c)))
  | .destroy i =>
    match at_ w i with
    | none => (.ub, w)
    | some _ => (.ok .done, w.set i none)

/-- What a call leaves behind. -/
def lost (mk : Mktime) (cd : Codec G1 G2 GT) (w : Values G1 G2 GT) : Call G1 G2 GT → List (Cell G1 G2 GT)
  | .set i name o => match at_ w i, o with
    | some _, .null => []
    | some c, _ => under c name
    | _, _ => []
  | .delete i name => match at_ w i with
    | some c => under c name
    | none => []
  | .write i => match at_ w i with
    | some c => buffers cd c
    | none => []
  | .read i blob => match at_ w i with
    | some c => overwritten c (entries mk cd blob (blob.length + 1) 0)
    | none => []
  | _ => []

/-- A history of calls on values: the answers, the containers and everything left behind. -/
def history (mk : Mktime) (cd : Codec G1 G2 GT) (w : Values G1 G2 GT) : List (Call G1 G2 GT) →
    List (Res (Ans G1 G2 GT)) × Values G1 G2 GT × List (Cell G1 G2 GT)
  | [] => ([], w, [])
  | c :: cs =>
    let next := history mk cd (step mk cd w c).2 cs
    match (step mk cd w c).1 with
    | .ok a => (.ok a :: next.1, next.2.1, lost mk cd w c ++ next.2.2)
    | .throw e => (.throw e :: next.1, next.2.1, lost mk cd w c ++ next.2.2)
    | r => ([r], (step mk cd w c).2, lost mk cd w c)

/-- The objects of all containers. -/
def owned (w : Values G1 G2 GT) : List (Cell G1 G2 GT) := w.flatMap fun c => match c with
  | some c => objs c
  | none => []

/-! ## The names that the schemes use -/

/-- Two names for each row of a sharing. -/
def rowNames (md : Bytes → Bytes) (a b : Bytes) (rows : List Bytes) : List Bytes :=
  rows.flatMap fun u => [Scheme.elementLabel a (Scheme.hashKey md u), Scheme.elementLabel b (Scheme.hashKey md u)]

/-- The names of a decryption key for attributes. -/
def cpKeyNames (md : Bytes → Bytes) (attrs : List Bytes) : List Bytes :=
  b!"input" :: b!"K" :: b!"L" :: attrs.map fun a => Scheme.elementLabel b!"KX" (Scheme.hashKey md a)

/-- The names of a ciphertext. -/
def ctNames (md : Bytes → Bytes) (sch : Scheme) (input : FInput) (rows : List Bytes) : List Bytes :=
  match sch, input with
  | .cp, .policy _ => (b!"policy" :: b!"Cprime" :: rowNames md b!"D" b!"C" rows) ++ [b!"_ED"]
  | .kp, .attrs l =>
    (b!"Cpr2" :: ((l.attrs.map fun a => Scheme.elementLabel b!"C" (Scheme.hashKey md a)) ++ [b!"attributes"])) ++ [b!"_ED"]
  | _, _ => []

/-- The names of the rows of a sharing, none if there is no sharing. -/
def sharedNames {F : Type} (r : Res (LSSS F × Nat)) : List Bytes :=
  match r with
  | .ok sh => sh.1.results.map (·.1)
  | _ => []

/-- The sharing of a key. -/
def kpSharing {q : Nat} [Fact q.Prime] (env : Env G1 G2 GT) (msk : Key G1 G2 GT) (p : Policy) (tape : Nat → ZMod q) : Res (LSSS (ZMod q) × Nat) := do
  let y ← Scheme.getZP msk.comps b!"y"
  let y ← Scheme.deref y
  shareSecret env.ndebug {} (some p) (y : ZMod q) tape

/-- The attributes of an input that is a list. -/
def inputAttrs : FInput → List Bytes
  | .attrs l => l.attrs
  | _ => []

/-- The names of the rows when the input is a policy. -/
def inputRows {q : Nat} [Fact q.Prime] (env : Env G1 G2 GT) (r : Scheme.Rand q) : FInput → List Bytes
  | .policy p => sharedNames (shareSecret env.ndebug {} (some p) r.x r.tape)
  | _ => []

/-! ## Pointers and values -/

/-- The pointers of a container. -/
def ptrs (d : Ptrs) : List Nat := d.filterMap (·.2)

/-- The object behind a pointer that may be null. -/
def objAt (h : Heap G1 G2 GT) : Option Nat → Obj G1 G2 GT
  | none => .null
  | some a => match h.get a with
    | some (.obj o) => o
    | _ => .null

/-- The container as values. -/
def view (h : Heap G1 G2 GT) (d : Ptrs) : Container G1 G2 GT := d.map fun e => (e.1, objAt h e.2)

/-- There is an object. -/
def Here (h : Heap G1 G2 GT) (a : Nat) : Prop := ∃ o : Obj G1 G2 GT, o ≠ .null ∧ h.get a = some (.obj o)

/-- Containers as values together with what has been left behind. -/
abbrev Ghost (G1 G2 GT : Type) := Container G1 G2 GT × List (Cell G1 G2 GT)

/-- A container on the heap and its values: every pointer leads to an object of its own, the objects of `F` belong to
others, and everything else that exists has been left behind. -/
structure Rel (F : List (Nat × Obj G1 G2 GT)) (s : State G1 G2 GT) (t : Ghost G1 G2 GT) : Prop where
  val : view s.1 s.2 = t.1
  here : ∀ a ∈ ptrs s.2, Here s.1 a
  frame : ∀ e ∈ F, s.1.get e.1 = some (.obj e.2)
  nodup : (ptrs s.2 ++ F.map (·.1)).Nodup
  sorted : SMap.Sorted s.2
  live : s.1.live.Perm (objs t.1 ++ F.map (fun e => .obj e.2) ++ t.2)

end Mem
end Abe
