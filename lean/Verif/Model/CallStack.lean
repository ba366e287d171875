import Verif.Model.Policy
/-!
# Recursion over policy trees (src/lsss/zpolicy.cpp)

Two member functions of `OpenABETreeNode` call themselves for the subnodes: `toString` (285-341) and the
copy constructor (244-277). Here they run with a call stack that has room for a given number of their
frames; a call without room for its frame is undefined behaviour. The unbounded versions are
`TNode.str` and `copyTree` in Model/Policy. The other walks over trees keep their own stack on the heap
(`resetFlags`, zlsss.cpp:196-330, 510-576) or are not recursive as it happens: `~OpenABETreeNode` never
deletes a subnode (Model/ParserHeap).
-/
set_option autoImplicit false
namespace Abe

/-- A call for each element in turn. -/
def callEach {α β : Type} (f : α → Res β) : List α → Res (List β)
  | [] => .ok []
  | x :: xs => do
    let y ← f x
    let ys ← callEach f xs
    .ok (y :: ys)

/-- zpolicy.cpp:285-341 `toString` with room for `n` frames. A gate with two subnodes only looks at them if it
is AND or OR (321-324). -/
def strFrames : Nat → TNode → Res Bytes
  | 0, _ => .ub
  | _ + 1, .leaf _ pre lab _ => .ok (completeLabel pre lab)
  | n + 1, .gate _ ty _ subs =>
    match subs with
    | [l, r] =>
      match ty with
      | .and => do
        let a ← strFrames n l
        let b ← strFrames n r
        .ok (b!"(" ++ (a ++ b!" and " ++ b) ++ b!")")
      | .or => do
        let a ← strFrames n l
        let b ← strFrames n r
        .ok (b!"(" ++ (a ++ b!" or " ++ b) ++ b!")")
      | _ => .ok b!"()"
    | _ => do
      let ss ← callEach (strFrames n) subs
      let head := match ty with
        | .and => natDec subs.length ++ b!" of "
        | .or => natDec 1 ++ b!" of "
        | _ => []
      let body := head ++ b!"(" ++ ss.flatMap (fun s => s ++ b!", ")
      .ok (body.take (body.length - 2) ++ b!")")

/-- zpolicy.cpp:244-277, the copy constructor with room for `n` frames. -/
def copyFrames : Nat → TNode → Res TNode
  | 0, _ => .ub
  | _ + 1, .leaf _ pre lab _ => .ok (.leaf {} pre lab none)
  | n + 1, .gate _ ty thr subs => do
    let cs ← callEach (copyFrames n) subs
    .ok (.gate {} ty thr cs)

/-- include/lsss/zpolicy.h:149-151 `OpenABEPolicy::toString`; a null root is dereferenced. -/
def Policy.strFrames (n : Nat) (p : Policy) : Res Bytes :=
  match p.root with
  | some t => Abe.strFrames n t
  | none => .ub

/-- zpolicy.cpp:68-84, the copy constructor of `OpenABEPolicy` with room for `n` frames of the one for nodes. -/
def Policy.copyFrames (n : Nat) (p : Policy) : Res Policy :=
  match p.root with
  | some t => do
    let t' ← Abe.copyFrames n t
    .ok { p with root := some t' }
  | none => .ok p

end Abe
