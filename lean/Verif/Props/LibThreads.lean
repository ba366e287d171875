import Verif.Proof.LibThreads
/-!
# Threads that use the library (C124)

include/abe_lsss.h:66-81 says how: one thread initialises the library, every other thread makes an `OpenABEStateContext` before
it uses anything else, and the library is shut down at the end. The theorems are about all interleavings of any number of threads
with any number of calls.
-/
set_option linter.unusedSimpArgs false
set_option linter.unusedSectionVars false
set_option autoImplicit false
namespace Abe
open Conc LibThreads

/-- **C124** A call that is not disturbed does what the model of one thread says (C69). -/
theorem C124_programs (slot : Nat → Nat) (i : Nat) (s : LibSt) (ok : Bool) :
    (((prog slot (i, .init ok)).alone s).1, ((prog slot (i, .init ok)).alone s).2.seenBy (slot i)) = (s.seenBy (slot i)).init ok ∧
    (((prog slot (i, .shutdown)).alone s).1, ((prog slot (i, .shutdown)).alone s).2.seenBy (slot i)) = (s.seenBy (slot i)).shutdown ∧
    (prog slot (i, .pairing)).alone s = ((s.seenBy (slot i)).newPairing, s) ∧
    (((prog slot (i, .enter ok)).alone s).2.flag i, ((prog slot (i, .enter ok)).alone s).2.seenBy (slot i)) =
      (s.seenBy (slot i)).threadNew ok ∧
    (((prog slot (i, .initThread ok)).alone s).2.flag i, ((prog slot (i, .initThread ok)).alone s).2.seenBy (slot i)) =
      (s.seenBy (slot i)).threadInit (s.flag i) ok ∧
    (((prog slot (i, .leave ok)).alone s).2.flag i, ((prog slot (i, .leave ok)).alone s).2.seenBy (slot i)) =
      (s.seenBy (slot i)).threadShutdown (s.flag i) ok := by
  refine ⟨?_, ?_, ?_, ?_, ?_, ?_⟩
  · cases h : s.ready <;> simp [prog, init, Prog.alone, mathInit, LibSt.seenBy, Lib.init, Lib.initialize', h]
  · simp [prog, shutdown, Prog.alone, mathInit, LibSt.seenBy, Lib.shutdown]
  · cases h : s.ready <;> cases h' : s.math (slot i) <;>
      simp [prog, pairing, Prog.alone, LibSt.seenBy, Lib.newPairing, Lib.assertInit, h, h', Res.throw_bind]
  · simp [prog, enter, initThread, Prog.alone, mathInit, LibSt.seenBy, Lib.threadNew]
  · cases h : s.flag i <;> simp [prog, initThread, Prog.alone, mathInit, LibSt.seenBy, Lib.threadInit, h]
  · cases h : s.flag i <;> simp [prog, leave, Prog.alone, mathInit, LibSt.seenBy, Lib.threadShutdown, h]

/-- Every thread has its context of RELIC and its `OpenABEStateContext`; `gLibraryState` is only read. -/
def libSplit (slot : Nat → Nat) (h : Function.Injective slot) : Split LibObj LibSt where
  own i o := o = .relic (slot i) ∨ o = .flag i
  shared o := o = .state
  agree i s t := s.ready = t.ready ∧ s.math (slot i) = t.math (slot i) ∧ s.flag i = t.flag i
  refl _ _ := ⟨rfl, rfl, rfl⟩
  symm _ _ _ h := ⟨h.1.symm, h.2.1.symm, h.2.2.symm⟩
  trans _ _ _ _ h h' := ⟨h.1.trans h'.1, h.2.1.trans h'.2.1, h.2.2.trans h'.2.2⟩
  apart i j o hij h1 h2 := by
    rcases h1 with rfl | rfl <;> rcases h2 with e | e
    · injection e with e; exact hij (h e)
    · cases e
    · cases e
    · injection e with e; exact hij e
  only i o h1 h2 := by rcases h1 with rfl | rfl <;> cases h2

theorem local_prog (slot : Nat → Nat) (h : Function.Injective slot) (i : Nat) (k : LibCall) (hk : k.perThread) :
    Local (libSplit slot h) i (prog slot (i, k)) := by
  have hm : ∀ (ok : Bool) (p : LibProg), Local (libSplit slot h) i p → Local (libSplit slot h) i (mathInit slot i ok p) := by
    intro ok p hp
    refine ⟨.inl (.inl rfl), fun s t hst => ⟨⟨hst.1, by simp, hst.2.2⟩, rfl⟩, fun j hj s => ⟨rfl, ?_, rfl⟩, fun _ => hp⟩
    simp only
    rw [Function.update_of_ne]
    exact fun e => hj (h e)
  have hf : ∀ (b : Bool) (p : LibProg), Local (libSplit slot h) i p →
      Local (libSplit slot h) i (.act ⟨.flag i, true⟩ (fun s => { s with flag := Function.update s.flag i b }) fun _ => p) := by
    intro b p hp
    refine ⟨.inl (.inr rfl), fun s t hst => ⟨⟨hst.1, hst.2.1, by simp⟩, rfl⟩, fun j hj s => ⟨rfl, rfl, ?_⟩, fun _ => hp⟩
    simp only
    rw [Function.update_of_ne hj]
  have hr : ∀ (p p' : LibProg), Local (libSplit slot h) i p → Local (libSplit slot h) i p' →
      Local (libSplit slot h) i (.act ⟨.flag i, false⟩ id fun s => if s.flag i = false then p else p') := by
    intro p p' hp hp'
    refine ⟨.inl (.inr rfl), fun s t hst => ⟨hst, by simp only [hst.2.2]⟩, fun j hj s => (libSplit slot h).refl _ _, fun s => ?_⟩
    simp only
    split
    · exact hp
    · exact hp'
  have hr' : ∀ (p p' : LibProg), Local (libSplit slot h) i p → Local (libSplit slot h) i p' →
      Local (libSplit slot h) i (.act ⟨.flag i, false⟩ id fun s => if s.flag i = true then p else p') := by
    intro p p' hp hp'
    refine ⟨.inl (.inr rfl), fun s t hst => ⟨hst, by simp only [hst.2.2]⟩, fun j hj s => (libSplit slot h).refl _ _, fun s => ?_⟩
    simp only
    split
    · exact hp
    · exact hp'
  cases k with
  | init ok => exact hk.elim
  | shutdown => exact hk.elim
  | pairing =>
    refine ⟨.inr ⟨rfl, rfl⟩, fun s t hst => ⟨hst, by simp only [hst.1]⟩, fun j hj s => (libSplit slot h).refl _ _, fun s => ?_⟩
    simp only
    split
    · trivial
    · exact ⟨.inl (.inl rfl), fun s t hst => ⟨hst, by simp only [hst.2.1]⟩, fun j hj s => (libSplit slot h).refl _ _, fun s => trivial⟩
  | enter ok => exact hf _ _ (hr _ _ (hm _ _ (hf _ _ trivial)) (hf _ _ trivial))
  | initThread ok => exact hr _ _ (hm _ _ trivial) trivial
  | leave ok => exact hr' _ _ (hm _ _ (hf _ _ trivial)) trivial

/-- **C124** Threads do not disturb each other: when every thread has its own context of RELIC, and no thread initialises the
library or shuts it down in the meantime, there is no data race, and every thread gets exactly the results that it gets when it
runs alone. -/
theorem C124_isolated (slot : Nat → Nat) (hs : Function.Injective slot) (s0 : LibSt) (todo : Nat → List LibCall)
    (hk : ∀ i, ∀ k ∈ todo i, k.perThread) {evs : List (Event (Nat × LibCall) (Res Unit))}
    {c : Cfg LibObj LibSt (Nat × LibCall) (Res Unit)} (he : Exec (prog slot) (begin' s0 todo) evs c) :
    ¬ Race c ∧ ∀ i, resultsOf i evs <+: (runAll (prog slot) s0 ((todo i).map fun k => (i, k))).1 := by
  have hl : ∀ i, ∀ k ∈ (todo i).map (fun k => (i, k)), Local (libSplit slot hs) i (prog slot k) := by
    intro i k hm
    obtain ⟨k', hk', rfl⟩ := List.mem_map.mp hm
    exact local_prog slot hs i k' (hk i k' hk')
  exact ⟨alone_no_race hl he, alone_results hl he⟩

/-- **C124 (partial)** After the library was initialised, any number of threads that follow the documentation can use it at the
same time: no data race, and every call of every thread succeeds, in every interleaving. Missing: RELIC built without threads,
initialisation and shutdown while other threads run, and failures of RELIC. -/
theorem C124_documented_partial (slot : Nat → Nat) (hs : Function.Injective slot) (s0 : LibSt) (hr : s0.ready = true)
    (todo : Nat → List LibCall) (hd : ∀ i, Documented (s0.math (slot i)) (todo i)) {evs : List (Event (Nat × LibCall) (Res Unit))}
    {c : Cfg LibObj LibSt (Nat × LibCall) (Res Unit)} (he : Exec (prog slot) (begin' s0 todo) evs c) :
    ¬ Race c ∧ ∀ i, ∀ r ∈ resultsOf i evs, r = .ok () := by
  obtain ⟨h1, h2⟩ := C124_isolated slot hs s0 todo (fun i k hk => ((hd i).1 k hk).1) he
  refine ⟨h1, fun i r hm => ?_⟩
  have hm := (h2 i).subset hm
  have main : ∀ (ks : List LibCall) (s : LibSt), s.ready = true → s.math (slot i) = true → (∀ k ∈ ks, k.perThread ∧ k.succeeds) →
      ∀ r ∈ (runAll (prog slot) s (ks.map fun k => (i, k))).1, r = .ok () := by
    intro ks
    induction ks with
    | nil => intro s _ _ _ r hr; cases hr
    | cons k ks ih =>
      intro s h1 h2 hk r hr
      have step : ((prog slot (i, k)).alone s).1 = .ok () ∧ ((prog slot (i, k)).alone s).2.ready = true ∧
          ((prog slot (i, k)).alone s).2.math (slot i) = true := by
        obtain ⟨a1, a2⟩ := hk k List.mem_cons_self
        cases k with
        | init ok => exact a1.elim
        | shutdown => exact a1.elim
        | pairing => simp [prog, pairing, Prog.alone, h1, h2]
        | enter ok => cases a2; simp [prog, enter, initThread, Prog.alone, mathInit, h1]
        | initThread ok => cases a2; cases hf : s.flag i <;> simp [prog, initThread, Prog.alone, mathInit, h1, h2, hf]
        | leave ok => cases a2; cases hf : s.flag i <;> simp [prog, leave, Prog.alone, mathInit, h1, h2, hf]
      simp only [List.map_cons, runAll] at hr
      rcases List.mem_cons.mp hr with rfl | hr
      · exact step.1
      · exact ih _ step.2.1 step.2.2 (fun k hk' => hk k (List.mem_cons_of_mem _ hk')) r hr
  rcases (hd i).2 with h0 | h0 | ⟨rest, h0⟩
  · exact main _ _ hr h0 (hd i).1 r hm
  · rw [h0] at hm; cases hm
  · rw [h0] at hm
    simp only [List.map_cons, runAll] at hm
    rcases List.mem_cons.mp hm with rfl | hm
    · simp [prog, enter, initThread, Prog.alone, mathInit]
    · refine main rest _ ?_ ?_ (fun k hk => (hd i).1 k (by rw [h0]; exact List.mem_cons_of_mem _ hk)) r hm
      · simp [prog, enter, initThread, Prog.alone, mathInit, hr]
      · simp [prog, enter, initThread, Prog.alone, mathInit]

/-- **C124** A thread without an `OpenABEStateContext` follows a null pointer: `AssertLibInit` passes, because the variable it reads is
global, but the thread has no context of RELIC. Whatever the other threads do, making a pairing object never ends well. -/
theorem C124_missing_context_violated (slot : Nat → Nat) (hs : Function.Injective slot) (s0 : LibSt) (hr : s0.ready = true)
    (i : Nat) (hm : s0.math (slot i) = false) (todo : Nat → List LibCall) (hk : ∀ i, ∀ k ∈ todo i, k.perThread)
    (rest : List LibCall) (hi : todo i = .pairing :: rest) {evs : List (Event (Nat × LibCall) (Res Unit))}
    {c : Cfg LibObj LibSt (Nat × LibCall) (Res Unit)} (he : Exec (prog slot) (begin' s0 todo) evs c) (r : Res Unit)
    (h : (resultsOf i evs).head? = some r) : r = .ub := by
  have h2 := (C124_isolated slot hs s0 todo hk he).2 i
  rw [hi] at h2
  cases hx : resultsOf i evs with
  | nil => rw [hx] at h; cases h
  | cons a l =>
    rw [hx] at h h2
    cases h
    simp only [List.map_cons, runAll, List.cons_prefix_cons] at h2
    rw [h2.1]
    simp [prog, pairing, Prog.alone, hr, hm]

/-- **C124** An `OpenABEStateContext` whose RELIC fails does not say so, and the next pairing object is undefined. -/
theorem C124_failed_thread_violated (slot : Nat → Nat) (i : Nat) (s : LibSt) (hr : s.ready = true) :
    (runAll (prog slot) s [(i, .enter false), (i, .pairing)]).1 = [.ok (), .ub] := by
  simp [runAll, prog, enter, initThread, pairing, Prog.alone, mathInit, hr]

section Races
variable {slot : Nat → Nat} {s0 : LibSt} {todo : Nat → List LibCall} {i j : Nat}

/-- A reachable configuration, as two of the threads see it. -/
def At (slot : Nat → Nat) (s0 : LibSt) (todo : Nat → List LibCall) (i j : Nat) (ri rj : List (Res Unit)) (st : LibSt)
    (pi pj : Thread LibObj LibSt (Nat × LibCall) (Res Unit)) : Prop :=
  ∃ evs c, Exec (prog slot) (begin' s0 todo) evs c ∧ resultsOf i evs = ri ∧ resultsOf j evs = rj ∧ c.st = st ∧ c.th i = pi ∧ c.th j = pj

variable {ri rj : List (Res Unit)} {st : LibSt} {pi pj : Thread LibObj LibSt (Nat × LibCall) (Res Unit)}

theorem At.start (slot : Nat → Nat) (s0 : LibSt) (todo : Nat → List LibCall) (i j : Nat) :
    At slot s0 todo i j [] [] s0 ⟨(todo i).map fun k => (i, k), none⟩ ⟨(todo j).map fun k => (j, k), none⟩ :=
  ⟨[], _, .nil, rfl, rfl, rfl, rfl, rfl⟩

theorem At.swap (h : At slot s0 todo i j ri rj st pi pj) : At slot s0 todo j i rj ri st pj pi := by
  obtain ⟨evs, c, h1, h2, h3, h4, h5, h6⟩ := h
  exact ⟨evs, c, h1, h3, h2, h4, h6, h5⟩

theorem At.call {k : Nat × LibCall} {ks : List (Nat × LibCall)} (h : At slot s0 todo i j ri rj st ⟨k :: ks, none⟩ pj) (hij : i ≠ j) :
    At slot s0 todo i j ri rj st ⟨ks, some (prog slot k)⟩ pj := by
  obtain ⟨evs, c, h1, h2, h3, h4, h5, h6⟩ := h
  refine ⟨_, _, .snoc h1 (.call c i k ks h5), ?_, ?_, h4, by simp, by simp [hij.symm, h6]⟩
  · rw [results_append, h2]; simp [resultsOf]
  · rw [results_append, h3]; simp [resultsOf]

theorem At.act {ks : List (Nat × LibCall)} {x : Access LibObj} {u : LibSt → LibSt} {n : LibSt → LibProg}
    (h : At slot s0 todo i j ri rj st ⟨ks, some (.act x u n)⟩ pj) (hij : i ≠ j) :
    At slot s0 todo i j ri rj (u st) ⟨ks, some (n st)⟩ pj := by
  obtain ⟨evs, c, h1, h2, h3, h4, h5, h6⟩ := h
  subst h4
  refine ⟨_, _, .snoc h1 (.act c i ks x u n h5), ?_, ?_, rfl, by simp, by simp [hij.symm, h6]⟩
  · rw [results_append, h2]; simp [resultsOf]
  · rw [results_append, h3]; simp [resultsOf]

theorem At.done {ks : List (Nat × LibCall)} {a : Res Unit} (h : At slot s0 todo i j ri rj st ⟨ks, some (.ret a)⟩ pj) (hij : i ≠ j) :
    At slot s0 todo i j (ri ++ [a]) rj st ⟨ks, none⟩ pj := by
  obtain ⟨evs, c, h1, h2, h3, h4, h5, h6⟩ := h
  refine ⟨_, _, .snoc h1 (.done c i ks a h5), ?_, ?_, h4, by simp, by simp [hij.symm, h6]⟩
  · rw [results_append, h2]; simp [resultsOf]
  · rw [results_append, h3]; simp [resultsOf, hij]

theorem At.race {ks ls : List (Nat × LibCall)} {o : LibObj} {w w' : Bool} {u v : LibSt → LibSt} {n m : LibSt → LibProg}
    (h : At slot s0 todo i j ri rj st ⟨ks, some (.act ⟨o, w⟩ u n)⟩ ⟨ls, some (.act ⟨o, w'⟩ v m)⟩) (hij : i ≠ j) (hw : w = true ∨ w' = true) :
    ∃ evs c, Exec (prog slot) (begin' s0 todo) evs c ∧ Race c := by
  obtain ⟨evs, c, h1, -, -, -, h5, h6⟩ := h
  exact ⟨evs, c, h1, i, j, ks, ls, _, _, u, v, n, m, hij, h5, h6, rfl, hw⟩

/-- **C124** Initialising the library is not safe: two threads that do it at the same time race for `gLibraryState`, and both can
succeed, although the second of two calls is to be refused (C69). -/
theorem C124_init_violated (slot : Nat → Nat) (i j : Nat) (hij : i ≠ j) (todo : Nat → List LibCall) (ok ok' : Bool)
    (ri rj : List LibCall) (hi : todo i = .init ok :: ri) (hj : todo j = .init ok' :: rj) :
    (∃ evs c, Exec (prog slot) (begin' {} todo) evs c ∧ Race c) ∧
    ∃ evs c, Exec (prog slot) (begin' {} todo) evs c ∧ resultsOf i evs = [.ok ()] ∧ resultsOf j evs = [.ok ()] := by
  have h0 := At.start slot {} todo i j
  rw [hi, hj] at h0
  have h1 := ((h0.call hij).swap.call hij.symm).swap
  have h2 := h1.act hij
  refine ⟨(h2.act hij).race hij (.inl rfl), ?_⟩
  have h3 := (h2.swap.act hij.symm).swap
  have h4 := (((h3.act hij).act hij).done hij).swap
  obtain ⟨evs, c, e1, e2, e3, -⟩ := ((h4.act hij.symm).act hij.symm).done hij.symm
  exact ⟨evs, c, e1, e3, e2⟩

/-- **C124** Shutting down the library while another thread makes a pairing object is a data race. -/
theorem C124_shutdown_violated (slot : Nat → Nat) (i j : Nat) (hij : i ≠ j) (s0 : LibSt) (todo : Nat → List LibCall)
    (ri rj : List LibCall) (hi : todo i = .shutdown :: ri) (hj : todo j = .pairing :: rj) :
    ∃ evs c, Exec (prog slot) (begin' s0 todo) evs c ∧ Race c := by
  have h0 := At.start slot s0 todo i j
  rw [hi, hj] at h0
  exact (((h0.call hij).swap.call hij.symm).swap.act hij).race hij (.inl rfl)

/-- **C124** When RELIC is not built for threads, following the documentation is a data race: two threads that make an
`OpenABEStateContext` at the same time both initialise the same context of RELIC. -/
theorem C124_one_relic_violated (slot : Nat → Nat) (i j : Nat) (hij : i ≠ j) (hs : slot i = slot j) (s0 : LibSt)
    (todo : Nat → List LibCall) (ok ok' : Bool) (ri rj : List LibCall) (hi : todo i = .enter ok :: ri) (hj : todo j = .enter ok' :: rj) :
    ∃ evs c, Exec (prog slot) (begin' s0 todo) evs c ∧ Race c := by
  have h0 := At.start slot s0 todo i j
  rw [hi, hj] at h0
  have h1 := ((h0.call hij).act hij).act hij
  have h2 := (((h1.swap.call hij.symm).act hij.symm).act hij.symm).swap
  simp only [Function.update_self, if_true, mathInit, id] at h2
  rw [hs] at h2
  exact h2.race hij (.inl rfl)

end Races

/-! ### Examples -/

/-- The thread that initialised the library and two others, each with its own context. -/
example : Function.Injective (id : Nat → Nat) ∧ ({ ready := true, math := fun i => i == 0 } : LibSt).ready = true ∧
    ∀ i, Documented (i == 0) (if i = 0 then [.pairing, .pairing] else if i = 1 then [.enter true, .pairing, .leave true] else
      if i = 2 then [.enter true, .pairing, .pairing] else []) := by
  refine ⟨fun _ _ h => h, rfl, fun i => ?_⟩
  unfold Documented
  split
  · rename_i h
    exact ⟨by simp [LibCall.perThread, LibCall.succeeds], .inl (by rw [h]; rfl)⟩
  · split
    · exact ⟨by simp [LibCall.perThread, LibCall.succeeds], .inr (.inr ⟨_, rfl⟩)⟩
    · split
      · exact ⟨by simp [LibCall.perThread, LibCall.succeeds], .inr (.inr ⟨_, rfl⟩)⟩
      · exact ⟨by simp, .inr (.inl rfl)⟩

/-- A thread that forgot its `OpenABEStateContext` runs, and ends undefined. -/
example : ∃ evs c, Exec (prog id) (begin' { ready := true, math := fun i => i == 0 } fun i => if i = 1 then [.pairing] else []) evs c ∧
    (resultsOf 1 evs).head? = some .ub := by
  have h := At.start id { ready := true, math := fun i => i == 0 } (fun i => if i = 1 then [.pairing] else []) 1 0
  obtain ⟨evs, c, h1, h2, -⟩ := (((h.call (by decide)).act (by decide)).act (by decide)).done (by decide)
  exact ⟨evs, c, h1, by rw [h2]; rfl⟩

/-- Two threads that initialise, one that shuts down, and two with the same context. -/
example : ∃ evs c, Exec (prog id) (begin' {} fun i => if i < 2 then [.init true] else []) evs c ∧ Race c :=
  (C124_init_violated id 0 1 (by decide) _ true true [] [] rfl rfl).1
example : ∃ evs c, Exec (prog id) (begin' { ready := true, math := fun _ => true } fun i => if i = 0 then [.shutdown] else if i = 1 then [.pairing, .pairing] else []) evs c ∧ Race c :=
  C124_shutdown_violated id 0 1 (by decide) _ _ [] [.pairing] rfl rfl
example : ∃ evs c, Exec (prog fun _ => 0) (begin' {} fun i => if i < 2 then [.enter true] else []) evs c ∧ Race c :=
  C124_one_relic_violated _ 0 1 (by decide) rfl _ _ true true [] [] rfl rfl

end Abe
