import Verif.Model.Parser
import Verif.Model.Library
/-!
# The parser's memory (src/lsss/zparser.tab.cc, zscanner.cpp, zdriver.cpp)

Model/Parser treats semantic values as values. Here they are what they are in the code: words of a union, most of them
pointers to objects that the scanner, the actions and the driver allocate with `new` and release with `delete`. The union of
a token that has no value keeps what was there before, so words may alias objects that belong to others or that are gone.
Reading or releasing an object that is not there, or through a pointer of another type, is undefined.

Simplified: a function of the driver that builds a tree computes it as in Model/Driver and then allocates its nodes, subnodes
first (these functions release nothing and read no node). The objects behind the driver's `unique_ptr`s (the policy and the
attribute list) are values, only the policy's root pointer is a pointer. Addresses are natural numbers. Allocation does not fail. Locations are not modelled.
-/
set_option autoImplicit false
namespace Abe
namespace PH


/-- The members of `OpenABETreeNode` (include/lsss/zpolicy.h:70-119) other than the subnodes and the reference count. -/
inductive Tag
  | leaf (fl : Flags) (pre lab : Bytes) (idx : Option Nat)
  | gate (fl : Flags) (ty : Gate) (thr : Nat)

/-- Objects: `std::string`, `OpenABEUInteger`, `std::vector<std::string>` and `OpenABETreeNode` with its reference count
(include/lsss/zobject.h:62). -/
inductive Obj
  | str (s : Bytes)
  | num (n : UInteger)
  | vec (l : List Bytes)
  | node (ref : UInt32) (tag : Tag) (kids : List Nat)

/-- The heap. A released cell is never used again. -/
structure Heap where
  cells : List (Option Obj)

/-- The object at an address. -/
def Heap.get (h : Heap) (a : Nat) : Option Obj := (h.cells[a]?).join

/-- `new`. -/
def Heap.alloc (h : Heap) (o : Obj) : Nat × Heap := (h.cells.length, ⟨h.cells ++ [some o]⟩)

/-- Overwrite a cell (`none`: release it). -/
def Heap.put (h : Heap) (a : Nat) (o : Option Obj) : Heap := ⟨h.cells.set a o⟩

/-- The addresses of the objects that exist. -/
def Heap.live (h : Heap) : List Nat := (List.range h.cells.length).filter fun a => (h.get a).isSome

/-- A word of the union (include/lsss/zparser.yy:61-67): not initialised, an integer, a pointer or the null pointer. -/
inductive HVal
  | junk
  | uint (n : UInt32)
  | ptr (a : Nat)
  | null

/-- Reading a string through a pointer. -/
def loadStr (h : Heap) : HVal → Res Bytes
  | .ptr a => match h.get a with
    | some (.str s) => .ok s
    | _ => .ub
  | _ => .ub

/-- Reading a number through a pointer. -/
def loadNum (h : Heap) : HVal → Res UInteger
  | .ptr a => match h.get a with
    | some (.num n) => .ok n
    | _ => .ub
  | _ => .ub

/-- Reading a list of attributes through a pointer. -/
def loadVec (h : Heap) : HVal → Res (List Bytes)
  | .ptr a => match h.get a with
    | some (.vec l) => .ok l
    | _ => .ub
  | _ => .ub

/-- Reading an integer. -/
def loadUint : HVal → Res UInt32
  | .uint n => .ok n
  | _ => .ub

/-- `delete` of a string; of the null pointer it does nothing. -/
def delStr (h : Heap) : HVal → Res Heap
  | .ptr a => match h.get a with
    | some (.str _) => .ok (h.put a none)
    | _ => .ub
  | .null => .ok h
  | _ => .ub

/-- `delete` of a number. -/
def delNum (h : Heap) : HVal → Res Heap
  | .ptr a => match h.get a with
    | some (.num _) => .ok (h.put a none)
    | _ => .ub
  | .null => .ok h
  | _ => .ub

/-- `delete` of a list of attributes. -/
def delVec (h : Heap) : HVal → Res Heap
  | .ptr a => match h.get a with
    | some (.vec _) => .ok (h.put a none)
    | _ => .ub
  | .null => .ok h
  | _ => .ub

/-- zpolicy.cpp:382-386, for a subnode as many `deRef` as its reference count says (zobject.cpp:82-88); `del` is `delete`. -/
def deRefKid (del : Heap → Nat → Res Heap) (h : Heap) (k : Nat) : Res Heap :=
  match h.get k with
  | some (.node ref tag kk) =>
    match RNode.deRefs ref.toNat ref with
    | none => .ub
    | some true => del h k
    | some false => .ok (h.put k (some (.node 0 tag kk)))
  | _ => .ub

/-- `delete` of a node: zpolicy.cpp:379-388, the loop over the subnodes, then the memory is released. The first argument
bounds the depth of the recursion. -/
def delNode : Nat → Heap → Nat → Res Heap
  | 0, _, _ => .ub
  | fuel + 1, h, a =>
    match h.get a with
    | some (.node _ _ kids) => do
      let h1 ← kids.foldlM (deRefKid (delNode fuel)) h
      match h1.get a with
      | some (.node _ _ _) => .ok (h1.put a none)
      | _ => .ub
    | _ => .ub

/-- `delete` of a tree. -/
def delTree (h : Heap) : HVal → Res Heap
  | .ptr a => delNode (h.cells.length + 1) h a
  | .null => .ok h
  | _ => .ub

mutual
/-- The nodes of a tree, subnodes first. `ZObject::ZObject` (zobject.cpp:50-53) sets the reference count to 1. -/
def allocTree : TNode → Heap → Nat × Heap
  | .leaf fl pre lab idx, h => h.alloc (.node 1 (.leaf fl pre lab idx) [])
  | .gate fl ty thr subs, h =>
    let r := allocTrees subs h
    r.2.alloc (.node 1 (.gate fl ty thr) r.1)
/-- The nodes of several trees. -/
def allocTrees : List TNode → Heap → List Nat × Heap
  | [], h => ([], h)
  | t :: ts, h =>
    let r := allocTree t h
    let rs := allocTrees ts r.2
    (r.1 :: rs.1, rs.2)
end

/-! ### The scanner -/

/-- zscanner.cpp:735-1042, the matches with the number of the rule. -/
def lexemes : Nat → Bytes → List (Nat × Bytes)
  | 0, _ => []
  | _, [] => []
  | fuel + 1, b :: s =>
    let m := yyMatch 1 0 (0, 0) (b :: s)
    (yyAccept.getD m.1 0, (b :: s).take m.2) :: lexemes fuel ((b :: s).drop m.2)

/-- zscanner.cpp:823-849, rule 2: the symbol, the union and the heap. The string of a reserved name is not released. -/
def scanLeaf (text : Bytes) (h : Heap) : Res (Nat × HVal × Heap) := do
  let x := h.alloc (.str text)
  let v := HVal.ptr x.1
  let s ← loadStr x.2 v
  if s = b!"[0]:" then do
    let h' ← delStr x.2 v
    .ok (17, v, h')
  else if s = b!"[1]:" then do
    let h' ← delStr x.2 v
    .ok (18, v, h')
  else if s = b!"or" ∨ s = b!"OR" then do
    let h' ← delStr x.2 v
    .ok (9, v, h')
  else if s = b!"and" ∨ s = b!"AND" then do
    let h' ← delStr x.2 v
    .ok (10, v, h')
  else if s = b!"in" ∨ s = b!"IN" then do
    let h' ← delStr x.2 v
    .ok (19, v, h')
  else if hasSub b!"expint" s then .ok (16, v, x.2)
  else .ok (4, v, x.2)

/-- zscanner.cpp:851-871, rule 3. -/
def scanOp (text : Bytes) (h : Heap) : Res (Nat × HVal × Heap) := do
  let x := h.alloc (.str text)
  let v := HVal.ptr x.1
  let s ← loadStr x.2 v
  if s = b!"<=" then do
    let h' ← delStr x.2 v
    .ok (14, v, h')
  else if s = b!">=" then do
    let h' ← delStr x.2 v
    .ok (15, v, h')
  else if s = b!"==" then do
    let h' ← delStr x.2 v
    .ok (12, v, h')
  else do
    let h' ← delStr x.2 v
    .ok (16, v, h')

/-- zscanner.cpp:806-821, rule 1: an error leaves the union alone. -/
def scanUint (text : Bytes) (v : HVal) (h : Heap) : Nat × HVal × Heap :=
  if decVal text < 4294967295 then
    (if decVal text = 0 then (16, v, h) else (5, .uint (UInt32.ofNat (decVal text)), h))
  else (16, v, h)

/-- zscanner.cpp:735-1042, a call of `yylex` with the parser's `yytranslate_` (zparser.tab.cc:1316-1362): symbol, union, heap
and the matches that are left. White space (rule 4) is skipped. -/
def scan (v : HVal) (h : Heap) : List (Nat × Bytes) → Res (Nat × HVal × Heap × List (Nat × Bytes))
  | [] => .ok (0, v, h, [])
  | (rule, text) :: rest =>
    match rule with
    | 1 =>
      let x := scanUint text v h
      .ok (x.1, x.2.1, x.2.2, rest)
    | 2 => do
      let x ← scanLeaf text h
      .ok (x.1, x.2.1, x.2.2, rest)
    | 3 => do
      let x ← scanOp text h
      .ok (x.1, x.2.1, x.2.2, rest)
    | 4 => scan v h rest
    | 5 => .ok (Tok.eol.sym, v, h, rest)
    | _ => .ok ((Tok.chr (text.headD 0)).sym, v, h, rest)

/-! ### The actions -/

/-- The driver without the tree of its policy. -/
def strip (d : Drv) : Drv := { d with policy := d.policy.map fun p => { p with root := none } }

/-- Heap, driver and the pointer `m_rootNode` of the driver's policy. -/
structure HSt where
  heap : Heap
  drv : Drv
  root : Option Nat

/-- A function of the driver that builds a tree. -/
def buildH (f : Drv → Res (TNode × Drv)) (st : HSt) : Res (HVal × HSt) := do
  let x ← f st.drv
  let r := allocTree x.1 st.heap
  .ok (.ptr r.1, ⟨r.2, x.2, st.root⟩)

/-- zdriver.cpp:97-111 `set_policy`: the policy takes over the tree (zpolicy.cpp:96-98, a tree it had before is released). -/
def setPolicyH (st : HSt) : HVal → Res HSt
  | .ptr a => do
    let h ← match st.root with
      | some r => delTree st.heap (.ptr r)
      | none => .ok st.heap
    .ok ⟨h, strip (setPolicy st.drv (.leaf {} [] [] none)), some a⟩
  | _ => .ub

/-- zdriver.cpp:113-138 `set_attrlist`: reads the list and releases it. -/
def setAttrlistH (st : HSt) (v : HVal) : Res HSt := do
  let l ← loadVec st.heap v
  let d ← setAttrlist st.drv (some l)
  let h ← delVec st.heap v
  .ok ⟨h, d, st.root⟩

/-- zdriver.cpp:206-217 `concat_attr`. -/
def concatH (st : HSt) (v1 v2 : HVal) : Res (HVal × HSt) := do
  let x : HVal × Heap := match v1 with
    | .null =>
      let r := st.heap.alloc (.vec [])
      (HVal.ptr r.1, r.2)
    | v => (v, st.heap)
  match v2 with
  | .null => .ok (x.1, { st with heap := x.2 })
  | v => do
    let l2 ← loadVec x.2 v
    let l1 ← loadVec x.2 x.1
    match x.1 with
    | .ptr a => .ok (x.1, { st with heap := x.2.put a (some (.vec (l1 ++ l2))) })
    | _ => .ub

/-- zdriver.cpp:244-269 `kof2_tree`. -/
def kof2H (k : Nat) (st : HSt) (l r : HVal) : Res (HVal × HSt) :=
  match l, r with
  | .ptr a, .ptr b =>
    let x := st.heap.alloc (.node 1 (.gate {} (match k with | 1 => .or | 2 => .and | _ => .threshold) k) [a, b])
    .ok (.ptr x.1, { st with heap := x.2 })
  | _, _ => .ub

/-- Rules 9 to 13 (zparser.tab.cc:747-775). -/
def cmpH (f : Drv → Bytes → UInteger → Res (TNode × Drv)) (v : List HVal) (st : HSt) : Res (Option (HVal × HSt)) :=
  match v with
  | [n, _, s] => do
    let str ← loadStr st.heap s
    let num ← loadNum st.heap n
    let x ← buildH (fun d => f d str num) st
    let h ← delStr x.2.heap s
    let h ← delNum h n
    .ok (some (x.1, { x.2 with heap := h }))
  | _ => .ub

/-- Rules 15 and 16 (zparser.tab.cc:783-797). -/
def rangeH (f : Drv → Bytes → UInteger → UInteger → Res (TNode × Drv)) (v : List HVal) (st : HSt) :
    Res (Option (HVal × HSt)) :=
  match v with
  | [_, hi, _, lo, _, _, s] => do
    let str ← loadStr st.heap s
    let nlo ← loadNum st.heap lo
    let nhi ← loadNum st.heap hi
    let x ← buildH (fun d => f d str nlo nhi) st
    let h ← delStr x.2.heap s
    let h ← delNum h lo
    let h ← delNum h hi
    .ok (some (x.1, { x.2 with heap := h }))
  | _ => .ub

/-- Rules 17 and 19 to 22 (zparser.tab.cc:799-851): the month lives in a `unique_ptr` that goes out of scope at the end. -/
def dateH (f : Drv → Bytes → UInteger → UInteger → UInteger → Res (TNode × Drv)) (v : List HVal) (st : HSt) :
    Res (Option (HVal × HSt)) :=
  match v with
  | [y, _, dd, m, _, s] => do
    let ms ← loadStr st.heap m
    let mm := st.heap.alloc (.num (getMonth ms))
    let str ← loadStr mm.2 s
    let mon ← loadNum mm.2 (.ptr mm.1)
    let nd ← loadNum mm.2 dd
    let ny ← loadNum mm.2 y
    let x ← buildH (fun d => f d str mon nd ny) { st with heap := mm.2 }
    let h ← delStr x.2.heap s
    let h ← delStr h m
    let h ← delNum h dd
    let h ← delNum h y
    let h ← delNum h (.ptr mm.1)
    .ok (some (x.1, { x.2 with heap := h }))
  | _ => .ub

/-- Rule 18 (zparser.tab.cc:809-816). -/
def rangeDateH (mk : Mktime) (v : List HVal) (st : HSt) : Res (Option (HVal × HSt)) :=
  match v with
  | [y, _, d2, _, d1, m, _, s] => do
    let ms ← loadStr st.heap m
    let mm := st.heap.alloc (.num (getMonth ms))
    let str ← loadStr mm.2 s
    let mon ← loadNum mm.2 (.ptr mm.1)
    let n1 ← loadNum mm.2 d1
    let n2 ← loadNum mm.2 d2
    let ny ← loadNum mm.2 y
    let x ← buildH (fun d => rangeDate mk d str mon n1 n2 ny) { st with heap := mm.2 }
    let h ← delStr x.2.heap s
    let h ← delStr h m
    let h ← delNum h d1
    let h ← delNum h d2
    let h ← delNum h y
    let h ← delNum h (.ptr mm.1)
    .ok (some (x.1, { x.2 with heap := h }))
  | _ => .ub

/-- Rule 23 (zparser.tab.cc:853-858) with zdriver.cpp:193-204 `leaf_attr`. -/
def leafAttrH (v : List HVal) (st : HSt) : Res (Option (HVal × HSt)) :=
  match v with
  | [s] => do
    let str ← loadStr st.heap s
    let x ← leafAttr st.drv str
    let r : HVal × Heap := match x.1 with
      | none => (.null, st.heap)
      | some l =>
        let a := st.heap.alloc (.vec l)
        (.ptr a.1, a.2)
    let h ← delStr r.2 s
    .ok (some (r.1, ⟨h, x.2, st.root⟩))
  | _ => .ub

/-- Rule 27 (zparser.tab.cc:877-882) with zdriver.cpp:141-154 `attr_num`. -/
def attrNumH (v : List HVal) (st : HSt) : Res (Option (HVal × HSt)) :=
  match v with
  | [n, _, s] => do
    let str ← loadStr st.heap s
    let num ← loadNum st.heap n
    let x := attrNum st.drv str num
    let a := st.heap.alloc (.vec x.1)
    let h ← delStr a.2 s
    let h ← delNum h n
    .ok (some (.ptr a.1, ⟨h, x.2, st.root⟩))
  | _ => .ub

/-- Rule 28 (zparser.tab.cc:883-891) with zdriver.cpp:156-173 `set_date_in_attrlist`. -/
def attrDateH (mk : Mktime) (v : List HVal) (st : HSt) : Res (Option (HVal × HSt)) :=
  match v with
  | [y, _, dd, m, _, s] => do
    let ms ← loadStr st.heap m
    let mm := st.heap.alloc (.num (getMonth ms))
    let str ← loadStr mm.2 s
    let mon ← loadNum mm.2 (.ptr mm.1)
    let nd ← loadNum mm.2 dd
    let ny ← loadNum mm.2 y
    let x := setDateAttr mk st.drv str ms mon nd ny
    let a := mm.2.alloc (.vec x.1)
    let h ← delStr a.2 s
    let h ← delStr h m
    let h ← delNum h dd
    let h ← delNum h y
    let h ← delNum h (.ptr mm.1)
    .ok (some (.ptr a.1, ⟨h, x.2, st.root⟩))
  | _ => .ub

/-- zparser.tab.cc:699-893, the semantic actions. The words of the right-hand side come top of stack first. `none` is
`YYERROR`. Rules 2 and 3 set no value: `$$` is `$1` (zparser.tab.cc:676-685). -/
def hAct (mk : Mktime) (rule : Nat) (v : List HVal) (st : HSt) : Res (Option (HVal × HSt)) :=
  match rule with
  | 2 => match v with
    | [t, w] => do
      let st' ← setPolicyH st t
      .ok (some (w, st'))
    | _ => .ub
  | 3 => match v with
    | [l, w] => do
      let st' ← setAttrlistH st l
      .ok (some (w, st'))
    | _ => .ub
  | 4 => match v with
    | [b, _, n] => do
      let nn ← loadUint n
      let bb ← loadUint b
      if checkValidBit nn bb then
        let a := st.heap.alloc (.num (createExpint nn bb))
        .ok (some (.ptr a.1, { st with heap := a.2 }))
      else .ok none
    | _ => .ub
  | 5 => match v with
    | [n] => do
      let nn ← loadUint n
      let a := st.heap.alloc (.num (createFlexint nn))
      .ok (some (.ptr a.1, { st with heap := a.2 }))
    | _ => .ub
  | 6 => match v with
    | [s] => do
      let str ← loadStr st.heap s
      let x ← buildH (fun d => leafNode d str) st
      let h ← delStr x.2.heap s
      .ok (some (x.1, { x.2 with heap := h }))
    | _ => .ub
  | 7 => match v with
    | [r, _, l] => do
      let x ← kof2H 1 st l r
      .ok (some x)
    | _ => .ub
  | 8 => match v with
    | [r, _, l] => do
      let x ← kof2H 2 st l r
      .ok (some x)
    | _ => .ub
  | 9 => cmpH ltPolicy v st
  | 10 => cmpH gtPolicy v st
  | 11 => cmpH lePolicy v st
  | 12 => cmpH gePolicy v st
  | 13 => cmpH eqPolicy v st
  | 14 => match v with
    | [_, t, _] => .ok (some (t, st))
    | _ => .ub
  | 15 => rangeH rangePolicy v st
  | 16 => rangeH rangeInclPolicy v st
  | 17 => dateH (eqDate mk) v st
  | 18 => rangeDateH mk v st
  | 19 => dateH (gtDate mk) v st
  | 20 => dateH (ltDate mk) v st
  | 21 => dateH (geDate mk) v st
  | 22 => dateH (leDate mk) v st
  | 23 => leafAttrH v st
  | 24 => match v with
    | [l, _] => do
      let x ← concatH st l .null
      .ok (some x)
    | _ => .ub
  | 25 => match v with
    | [_, l] => do
      let x ← concatH st l .null
      .ok (some x)
    | _ => .ub
  | 26 => match v with
    | [r, _, l] => do
      let x ← concatH st l r
      let h ← delVec x.2.heap r
      .ok (some (x.1, { x.2 with heap := h }))
    | _ => .ub
  | 27 => attrNumH v st
  | 28 => attrDateH mk v st
  | _ => .ub

/-! ### The loop -/

/-- State of `Parser::parse`: the stack (top first), the lookahead symbol `yyla` (`none`: empty) with its union, which stays
when the symbol is shifted (zparser.tab.cc:372-377), the matches not scanned yet, and the rest. -/
structure HConf where
  stack : List (Nat × HVal)
  la : Option Nat
  laval : HVal
  input : List (Nat × Bytes)
  st : HSt

/-- zparser.tab.cc:399-435 `yy_destroy_`: the symbol decides which member of the union is released. -/
def destroy (h : Heap) (sym : Nat) (v : HVal) : Res Heap :=
  if sym = 4 then delStr h v
  else if sym = 33 then delNum h v
  else if sym = 34 then delTree h v
  else if sym = 35 then delVec h v
  else .ok h

/-- zparser.tab.cc:1033-1037 (and 984-994): every symbol but the bottom one is destroyed. -/
def destroyAll (h : Heap) : List (Nat × HVal) → Res Heap
  | [] => .ok h
  | [_] => .ok h
  | e :: e' :: rest => do
    let h' ← destroy h (yyStos.getD e.1 0).toNat e.2
    destroyAll h' (e' :: rest)

/-- zparser.tab.cc:1026-1029: the lookahead symbol is destroyed unless it is empty. -/
def destroyLa (h : Heap) (la : Option Nat) (v : HVal) : Res Heap :=
  match la with
  | none => .ok h
  | some sym => destroy h sym v

/-- zdriver.cpp:86-95 `Driver::error`: the policy is released with its tree. -/
def errorH (st : HSt) : Res HSt :=
  if st.drv.isPolicy then do
    let h ← match st.root with
      | some r => delTree st.heap (.ptr r)
      | none => .ok st.heap
    .ok ⟨h, st.drv.error, none⟩
  else .ok ⟨st.heap, st.drv.error, st.root⟩

/-- One round. -/
inductive HStep
  | next (c : HConf)
  | stop (r : Res (Bool × HSt))

/-- Leave the loop with a computed result. -/
def HStep.ofRes : Res HStep → HStep
  | .ok s => s
  | .throw e => .stop (.throw e)
  | .ub => .stop .ub
  | .abort => .stop .abort

/-- zparser.tab.cc:1024-1040, `yyreturn`: first the lookahead, then the stack. -/
def hReturn (acc : Bool) (c : HConf) : Res (Bool × HSt) := do
  let h ← destroyLa c.st.heap c.la c.laval
  let h' ← destroyAll h c.stack
  .ok (acc, { c.st with heap := h' })

/-- zparser.tab.cc:967-1000 and 1016-1020, `yyerrlab1`: no state has a transition on the error token, so every symbol but the
bottom one is popped and destroyed, then `yyreturn` with the bottom symbol alone. -/
def hAbort (c : HConf) : Res (Bool × HSt) := do
  let h ← destroyAll c.st.heap c.stack
  hReturn false { c with stack := c.stack.drop (c.stack.length - 1), st := { c.st with heap := h } }

/-- zparser.tab.cc:918-947, `yyerrlab`. -/
def hErr (c : HConf) : Res (Bool × HSt) := do
  let st ← errorH c.st
  hAbort { c with st := st }

/-- zparser.tab.cc:667-915, `yyreduce`; 951-963 `YYERROR` pops the right-hand side without destroying it. -/
def hReduce (mk : Mktime) (c : HConf) (rule : Nat) : HStep :=
  let len := (yyR2.getD rule 0).toNat
  match hAct mk rule ((c.stack.take len).map Prod.snd) c.st with
  | .ok (some (v, st)) =>
    let below := c.stack.drop len
    match below with
    | [] => .stop .ub
    | (s, _) :: _ =>
      .next { c with stack := (yyGoto s (yyR1.getD rule 0).toNat, v) :: below, st := st }
  | .ok none => .stop (hAbort { c with stack := c.stack.drop len })
  | .throw e => .stop (.throw e)
  | .ub => .stop .ub
  | .abort => .stop .abort

/-- zparser.tab.cc:629-633: an empty lookahead is read. -/
def hRead (c : HConf) : Res (Nat × HConf) :=
  match c.la with
  | some x => .ok (x, c)
  | none => do
    let r ← scan c.laval c.st.heap c.input
    .ok (r.1, { c with la := some r.1, laval := r.2.1, input := r.2.2.2, st := { c.st with heap := r.2.2.1 } })

/-- zparser.tab.cc:590-660, one round of the loop of `Parser::parse`. -/
def hStep (mk : Mktime) (c : HConf) : HStep :=
  match c.stack with
  | [] => .stop .ub
  | (s, _) :: _ =>
    if s = 10 then .stop (hReturn true c)
    else
      let dflt (c : HConf) : HStep :=
        let r := (yyDefact.getD s 0).toNat
        if r = 0 then .stop (hErr c) else hReduce mk c r
      if yyPact.getD s 0 = -20 then dflt c
      else
        HStep.ofRes (do
          let (x, c') ← hRead c
          match yyLook s x with
          | none => .ok (dflt c')
          | some n =>
            if n ≤ 0 then .ok (if n = -1 then .stop (hErr c') else hReduce mk c' (-n).toNat)
            else .ok (.next { c' with stack := (n.toNat, c'.laval) :: c'.stack, la := none }))

/-- zparser.tab.cc:541-1056 `Parser::parse`. The first argument bounds the number of rounds. -/
def hRun (mk : Mktime) : Nat → HConf → Res (Bool × HSt)
  | 0, _ => .ub
  | fuel + 1, c =>
    match hStep mk c with
    | .next c' => hRun mk fuel c'
    | .stop r => r

/-- The configuration at the start, on a heap. -/
def hStart (h : Heap) (isPolicy : Bool) (s : Bytes) : HConf :=
  let text := (if isPolicy then b!"[0]: " else b!"[1]: ") ++ s
  { stack := [(0, .junk)], la := none, laval := .junk, input := lexemes text.length text,
    st := ⟨h, { input := s, isPolicy := isPolicy }, none⟩ }

/-- zdriver.cpp:58-84 `parse_string`, `parse_stream`, with an empty heap: did it accept, the driver and the heap. -/
def parseHeap (mk : Mktime) (isPolicy : Bool) (s : Bytes) : Res (Bool × HSt) :=
  hRun mk (yyFuel (lex ((if isPolicy then b!"[0]: " else b!"[1]: ") ++ s)).length) (hStart ⟨[]⟩ isPolicy s)

end PH
end Abe
