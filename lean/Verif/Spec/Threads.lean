import Verif.Base
import Mathlib.Logic.Function.Basic
import Mathlib.Data.List.Basic
/-!
# Threads that share an object

Programs are made of single accesses to the shared object and of operations on one mutex (`std::mutex`, not
recursive). Threads take turns after every access, in any order. Linearizability is defined on the events that can be
observed from outside: calls and returns.
-/
set_option autoImplicit false
namespace Abe.Conc

/-- An access to a part of the shared object; for containers of the standard library every member function that is not
`const` counts as a write, `operator[]` of a map included. -/
structure Access (ob : Type) where
  obj : ob
  write : Bool

/-- A program: one access after the other. `next` gets the state the access found. -/
inductive Prog (ob σ α : Type) : Type
  | ret (a : α)
  | act (x : Access ob) (upd : σ → σ) (next : σ → Prog ob σ α)
  | lock (next : Prog ob σ α)
  | unlock (next : Prog ob σ α)

variable {ob σ α β κ : Type}

namespace Prog

/-- One program after the other. -/
def bind : Prog ob σ α → (α → Prog ob σ β) → Prog ob σ β
  | ret a, k => k a
  | act x u n, k => act x u fun s => (n s).bind k
  | lock p, k => lock (p.bind k)
  | unlock p, k => unlock (p.bind k)

instance : Monad (Prog ob σ) where
  pure := ret
  bind := bind

/-- Reading a part. -/
def check (o : ob) (f : σ → α) : Prog ob σ α := act ⟨o, false⟩ id fun s => ret (f s)
/-- Changing a part; the result may depend on the state before. -/
def change (o : ob) (u : σ → σ) (f : σ → α) : Prog ob σ α := act ⟨o, true⟩ u fun s => ret (f s)

/-- `std::lock_guard`: the mutex is released when the block is left, also by an exception (results are values here). -/
def guarded (p : Prog ob σ α) : Prog ob σ α := lock (p.bind fun a => unlock (ret a))

/-- The program when nobody else runs. -/
def alone : Prog ob σ α → σ → α × σ
  | ret a, s => (a, s)
  | act _ u n, s => (n s).alone (u s)
  | lock p, s => p.alone s
  | unlock p, s => p.alone s

/-- No mutex operations. -/
def Plain : Prog ob σ α → Prop
  | ret _ => True
  | act _ _ n => ∀ s, (n s).Plain
  | lock _ => False
  | unlock _ => False

end Prog

/-- A thread: calls to make, and the program of the present call. -/
structure Thread (ob σ κ α : Type) where
  todo : List κ
  cur : Option (Prog ob σ α) := none

/-- The shared object, the owner of the mutex, the threads. -/
structure Cfg (ob σ κ α : Type) where
  st : σ
  owner : Option Nat := none
  th : Nat → Thread ob σ κ α

/-- What can be seen of a step: a call, a return, or nothing. -/
inductive Event (κ α : Type)
  | call (i : Nat) (k : κ)
  | done (i : Nat) (a : α)
  | tau (i : Nat)

/-- Steps of any thread. A thread that finds the mutex taken waits. -/
inductive Step (prog : κ → Prog ob σ α) : Cfg ob σ κ α → Event κ α → Cfg ob σ κ α → Prop
  | call (c : Cfg ob σ κ α) (i : Nat) (k : κ) (ks : List κ) : c.th i = ⟨k :: ks, none⟩ →
      Step prog c (.call i k) { c with th := Function.update c.th i ⟨ks, some (prog k)⟩ }
  | act (c : Cfg ob σ κ α) (i : Nat) (ks : List κ) (x : Access ob) (u : σ → σ) (n : σ → Prog ob σ α) :
      c.th i = ⟨ks, some (.act x u n)⟩ →
      Step prog c (.tau i) { c with st := u c.st, th := Function.update c.th i ⟨ks, some (n c.st)⟩ }
  | lock (c : Cfg ob σ κ α) (i : Nat) (ks : List κ) (p : Prog ob σ α) : c.th i = ⟨ks, some (.lock p)⟩ → c.owner = none →
      Step prog c (.tau i) { c with owner := some i, th := Function.update c.th i ⟨ks, some p⟩ }
  | unlock (c : Cfg ob σ κ α) (i : Nat) (ks : List κ) (p : Prog ob σ α) : c.th i = ⟨ks, some (.unlock p)⟩ →
      c.owner = some i →
      Step prog c (.tau i) { c with owner := none, th := Function.update c.th i ⟨ks, some p⟩ }
  | done (c : Cfg ob σ κ α) (i : Nat) (ks : List κ) (a : α) : c.th i = ⟨ks, some (.ret a)⟩ →
      Step prog c (.done i a) { c with th := Function.update c.th i ⟨ks, none⟩ }

/-- Executions. -/
inductive Exec (prog : κ → Prog ob σ α) (c0 : Cfg ob σ κ α) : List (Event κ α) → Cfg ob σ κ α → Prop
  | nil : Exec prog c0 [] c0
  | snoc {evs e c c'} : Exec prog c0 evs c → Step prog c e c' → Exec prog c0 (evs ++ [e]) c'

/-- The start: no thread has begun, the mutex is free. -/
def start (s : σ) (todo : Nat → List κ) : Cfg ob σ κ α := ⟨s, none, fun i => ⟨todo i, none⟩⟩

/-- The calls a thread made. -/
def callsOf (i : Nat) : List (Event κ α) → List κ
  | [] => []
  | .call j k :: evs => if j = i then k :: callsOf i evs else callsOf i evs
  | _ :: evs => callsOf i evs

/-- The results a thread got. -/
def resultsOf (i : Nat) : List (Event κ α) → List α
  | [] => []
  | .done j a :: evs => if j = i then a :: resultsOf i evs else resultsOf i evs
  | _ :: evs => resultsOf i evs

/-- The calls of one thread in a sequence. -/
def ofThread (i : Nat) (L : List (Nat × κ × α)) : List (κ × α) := (L.filter fun x => x.1 = i).map Prod.snd

/-- One call after the other, with their results. -/
inductive Legal (sem : κ → σ → α × σ) : σ → List (Nat × κ × α) → σ → Prop
  | nil (s : σ) : Legal sem s [] s
  | snoc {s s1 s2 L} (i : Nat) (k : κ) (a : α) : Legal sem s L s1 → sem k s1 = (a, s2) → Legal sem s (L ++ [(i, k, a)]) s2

/-- The events can be explained by calls that take effect one after the other, each at some moment between its call and
its return: `L` is the order; it contains the finished calls of each thread, in the order and with the results
observed, and possibly one unfinished call per thread; and at every moment the calls that have taken effect include
those that have returned and are among those that have begun. -/
def Linearizable (sem : κ → σ → α × σ) (s0 : σ) (evs : List (Event κ α)) (L : List (Nat × κ × α)) : Prop :=
  (∃ s, Legal sem s0 L s) ∧
  (∀ i, ((ofThread i L).map Prod.fst) <+: callsOf i evs ∧ resultsOf i evs <+: (ofThread i L).map Prod.snd ∧
    (ofThread i L).length ≤ (resultsOf i evs).length + 1) ∧
  ∀ e1 e2, evs = e1 ++ e2 → ∃ L1 L2, L = L1 ++ L2 ∧
    ∀ i, (resultsOf i e1).length ≤ (ofThread i L1).length ∧ (ofThread i L1).length ≤ (callsOf i e1).length

/-- A data race: two threads are about to access the same part, one of them to change it. This is undefined
behaviour. -/
def Race (c : Cfg ob σ κ α) : Prop :=
  ∃ i j ks ls x y u v n m, i ≠ j ∧ c.th i = ⟨ks, some (.act x u n)⟩ ∧ c.th j = ⟨ls, some (.act y v m)⟩ ∧ x.obj = y.obj ∧
    (x.write = true ∨ y.write = true)

/-- All threads have made all their calls. -/
def Finished (c : Cfg ob σ κ α) : Prop := ∀ i, c.th i = ⟨[], none⟩

end Abe.Conc
