import Verif.Model.LibContexts
import Mathlib.Data.List.Induction
import Mathlib.Logic.Function.Basic
/-!
# Library state with state contexts, after any calls (C166)

The specification speaks about the history of calls only.
-/
set_option linter.unusedSimpArgs false
set_option linter.unusedSectionVars false
set_option autoImplicit false
namespace Abe
namespace Lib

/-- There was a call `p` after which no call `n` came. -/
def Since (p n : TCall → Prop) (h : List TCall) : Prop := ∃ a c b, h = a ++ c :: b ∧ p c ∧ ∀ d ∈ b, ¬ n d

/-- The library was initialised and not shut down since. -/
def Up (h : List TCall) : Prop := Since (fun c => ∃ ok, c = .init ok) (fun c => c = .shutdown) h
/-- The state context `x` was made and not destroyed since. -/
def Made (x : Nat) (h : List TCall) : Prop := Since (fun c => ∃ ok, c = .enter x ok) (fun c => ∃ ok, c = .destroy x ok) h
/-- The state context `x` was made and neither left nor destroyed since. -/
def Inside (x : Nat) (h : List TCall) : Prop :=
  Since (fun c => ∃ ok, c = .enter x ok) (fun c => (∃ ok, c = .leave x ok) ∨ ∃ ok, c = .destroy x ok) h

/-- The call `c` after the history `h` initialises (`true`) or loses (`false`) the math library. -/
def Sets (h : List TCall) (c : TCall) (m : Bool) : Prop :=
  match c with
  | .init ok => ¬ Up h ∧ m = ok
  | .shutdown => m = false
  | .pairing => False
  | .enter _ ok => m = ok
  | .again x ok => Made x h ∧ ¬ Inside x h ∧ m = ok
  | .leave x ok => Inside x h ∧ m = ok
  | .destroy x ok => Inside x h ∧ m = ok

/-- The last call of the history that had an effect on the math library initialised it. -/
def MathUp (h : List TCall) : Prop :=
  ∃ a c b, h = a ++ c :: b ∧ Sets a c true ∧ ∀ b1 d b2, b = b1 ++ d :: b2 → ∀ m, ¬ Sets (a ++ c :: b1) d m

theorem since_snoc (p n : TCall → Prop) (h : List TCall) (c : TCall) :
    Since p n (h ++ [c]) ↔ p c ∨ (¬ n c ∧ Since p n h) := by
  constructor
  · rintro ⟨a, d, b, e, hp, hb⟩
    rcases List.eq_nil_or_concat b with rfl | ⟨b', f, rfl⟩
    · have := List.append_inj' e rfl
      have h2 : c = d := by simpa using this.2
      exact .inl (h2 ▸ hp)
    · have e' : h ++ [c] = (a ++ d :: b') ++ [f] := by simpa using e
      obtain ⟨h1, h2⟩ := List.append_inj' e' rfl
      have h3 : c = f := by simpa using h2
      subst h3
      exact .inr ⟨hb c (by simp), a, d, b', h1, hp, fun x hx => hb x (by simp [hx])⟩
  · rintro (hp | ⟨hn, a, d, b, rfl, hp, hb⟩)
    · exact ⟨h, c, [], rfl, hp, by simp⟩
    · refine ⟨a, d, b ++ [c], by simp, hp, fun x hx => ?_⟩
      rcases List.mem_append.mp hx with hx | hx
      · exact hb x hx
      · rw [List.mem_singleton.mp hx]; exact hn

theorem mathUp_snoc (h : List TCall) (c : TCall) :
    MathUp (h ++ [c]) ↔ Sets h c true ∨ ((∀ m, ¬ Sets h c m) ∧ MathUp h) := by
  constructor
  · rintro ⟨a, d, b, e, hs, hb⟩
    rcases List.eq_nil_or_concat b with rfl | ⟨b', f, rfl⟩
    · obtain ⟨h1, h2⟩ := List.append_inj' e rfl
      have h3 : c = d := by simpa using h2
      subst h1; subst h3
      exact .inl hs
    · have e' : h ++ [c] = (a ++ d :: b') ++ [f] := by simpa using e
      obtain ⟨h1, h2⟩ := List.append_inj' e' rfl
      have h3 : c = f := by simpa using h2
      subst h1; subst h3
      refine .inr ⟨hb b' c [] (by simp), a, d, b', rfl, hs, ?_⟩
      rintro b1 x b2 rfl m
      exact hb b1 x (b2 ++ [c]) (by simp) m
  · rintro (hs | ⟨hn, a, d, b, rfl, hs, hb⟩)
    · exact ⟨h, c, [], rfl, hs, by simp⟩
    · refine ⟨a, d, b ++ [c], by simp, hs, ?_⟩
      intro b1 x b2 e m
      rcases List.eq_nil_or_concat b2 with rfl | ⟨b', f, rfl⟩
      · obtain ⟨h1, h2⟩ := List.append_inj' e rfl
        have h3 : c = x := by simpa using h2
        subst h1; subst h3
        exact hn m
      · have e' : b ++ [c] = (b1 ++ x :: b') ++ [f] := by simpa using e
        obtain ⟨h1, -⟩ := List.append_inj' e' rfl
        exact hb b1 x b' h1 m

theorem worldRun_snoc (h : List TCall) (c : TCall) : World.run (h ++ [c]) = ((World.run h).call c).2 := by
  simp [World.run, List.foldl_append]

theorem since_nil (p n : TCall → Prop) : ¬ Since p n [] := by rintro ⟨a, c, b, e, -⟩; simp at e

/-- The state after any history. -/
structure Agrees (w : World) (h : List TCall) : Prop where
  ready : w.lib.ready = true ↔ Up h
  math : w.lib.math = true ↔ MathUp h
  made : ∀ x, (w.flag x).isSome = true ↔ Made x h
  inside : ∀ x, w.flag x = some true ↔ Inside x h

theorem agrees (h : List TCall) : Agrees (World.run h) h := by
  induction h using List.reverseRecOn with
  | nil =>
    refine ⟨?_, ?_, fun x => ?_, fun x => ?_⟩
    · simp [World.run, Up, since_nil]
    · simp only [World.run, List.foldl_nil, Bool.false_eq_true, false_iff]
      rintro ⟨a, c, b, e, -⟩; simp at e
    · simp [World.run, Made, since_nil]
    · simp [World.run, Inside, since_nil]
  | append_singleton h c ih =>
    obtain ⟨i1, i2, i3, i4⟩ := ih
    have m1 : ∀ x, Made x (h ++ [c]) ↔ (∃ ok, c = .enter x ok) ∨ ((¬ ∃ ok, c = .destroy x ok) ∧ Made x h) :=
      fun x => since_snoc _ _ h c
    have n1 : ∀ x, Inside x (h ++ [c]) ↔ (∃ ok, c = .enter x ok) ∨
        ((¬ ((∃ ok, c = .leave x ok) ∨ ∃ ok, c = .destroy x ok)) ∧ Inside x h) := fun x => since_snoc _ _ h c
    have u1 : Up (h ++ [c]) ↔ (∃ ok, c = .init ok) ∨ ((¬ c = .shutdown) ∧ Up h) := since_snoc _ _ h c
    have k1 := mathUp_snoc h c
    rw [worldRun_snoc]
    generalize World.run h = w at *
    cases c with
    | init ok =>
      refine ⟨?_, ?_, fun x => ?_, fun x => ?_⟩
      · rw [u1]; cases hr : w.lib.ready <;> simp [World.call, init, initialize', hr]
      · rw [k1]
        cases hr : w.lib.ready
        · have : ¬ Up h := by rw [← i1]; simp [hr]
          cases ok <;> simp [World.call, init, initialize', hr, Sets, this]
        · have : Up h := i1.mp hr
          simp [World.call, init, initialize', hr, Sets, this, i2]
      · rw [m1]; simp [World.call, i3]
      · rw [n1]; simp [World.call, i4]
    | shutdown =>
      refine ⟨?_, ?_, fun x => ?_, fun x => ?_⟩
      · rw [u1]; simp [World.call, shutdown]
      · rw [k1]; simp [World.call, shutdown, Sets]
      · rw [m1]; simp [World.call, i3]
      · rw [n1]; simp [World.call, i4]
    | pairing =>
      refine ⟨?_, ?_, fun x => ?_, fun x => ?_⟩
      · rw [u1]; simp [World.call, i1]
      · rw [k1]; simp [World.call, Sets, i2]
      · rw [m1]; simp [World.call, i3]
      · rw [n1]; simp [World.call, i4]
    | enter y ok =>
      refine ⟨?_, ?_, fun x => ?_, fun x => ?_⟩
      · rw [u1]; simp [World.call, threadNew, i1]
      · rw [k1]; cases ok <;> simp [World.call, threadNew, Sets]
      · rw [m1]
        by_cases hx : x = y
        · subst hx; simp [World.call, threadNew]
        · simp [World.call, threadNew, Function.update_of_ne hx, Ne.symm hx, i3]
      · rw [n1]
        by_cases hx : x = y
        · subst hx; simp [World.call, threadNew]
        · simp [World.call, threadNew, Function.update_of_ne hx, Ne.symm hx, i4]
    | again y ok =>
      have hmade := i3 y
      have hins := i4 y
      cases hf : w.flag y with
      | none =>
        rw [hf] at hmade hins
        have hm : ¬ Made y h := by rw [← hmade]; simp
        refine ⟨?_, ?_, fun x => ?_, fun x => ?_⟩
        · rw [u1]; simp [World.call, World.onContext, hf, i1]
        · rw [k1]; simp [World.call, World.onContext, hf, Sets, hm, i2]
        · rw [m1]; simp [World.call, World.onContext, hf, i3]
        · rw [n1]; simp [World.call, World.onContext, hf, i4]
      | some b =>
        rw [hf] at hmade hins
        have hm : Made y h := hmade.mp rfl
        have e : ∀ x, Function.update w.flag y (some b) x = w.flag x := by
          intro x; rw [← hf, Function.update_eq_self]
        cases b with
        | true =>
          have hi : Inside y h := hins.mp rfl
          refine ⟨?_, ?_, fun x => ?_, fun x => ?_⟩
          · rw [u1]; simp [World.call, World.onContext, hf, threadInit, i1]
          · rw [k1]; simp [World.call, World.onContext, hf, threadInit, Sets, hm, hi, i2]
          · rw [m1]; simp [World.call, World.onContext, hf, threadInit, e, i3]
          · rw [n1]; simp [World.call, World.onContext, hf, threadInit, e, i4]
        | false =>
          have hi : ¬ Inside y h := by rw [← hins]; simp
          refine ⟨?_, ?_, fun x => ?_, fun x => ?_⟩
          · rw [u1]; simp [World.call, World.onContext, hf, threadInit, i1]
          · rw [k1]; cases ok <;> simp [World.call, World.onContext, hf, threadInit, Sets, hm, hi]
          · rw [m1]; simp [World.call, World.onContext, hf, threadInit, e, i3]
          · rw [n1]; simp [World.call, World.onContext, hf, threadInit, e, i4]
    | leave y ok =>
      have hmade := i3 y
      have hins := i4 y
      cases hf : w.flag y with
      | none =>
        rw [hf] at hmade hins
        have hi : ¬ Inside y h := by rw [← hins]; simp
        refine ⟨?_, ?_, fun x => ?_, fun x => ?_⟩
        · rw [u1]; simp [World.call, World.onContext, hf, i1]
        · rw [k1]; simp [World.call, World.onContext, hf, Sets, hi, i2]
        · rw [m1]; simp [World.call, World.onContext, hf, i3]
        · rw [n1]
          by_cases hx : x = y
          · subst hx; simp [World.call, World.onContext, hf]
          · simp [World.call, World.onContext, hf, i4, Ne.symm hx]
      | some b =>
        rw [hf] at hmade hins
        have hm : Made y h := hmade.mp rfl
        cases b with
        | true =>
          have hi : Inside y h := hins.mp rfl
          refine ⟨?_, ?_, fun x => ?_, fun x => ?_⟩
          · rw [u1]; simp [World.call, World.onContext, hf, threadShutdown, i1]
          · rw [k1]; cases ok <;> simp [World.call, World.onContext, hf, threadShutdown, Sets, hi]
          · rw [m1]
            by_cases hx : x = y
            · subst hx; simp [World.call, World.onContext, hf, threadShutdown, hm]
            · simp [World.call, World.onContext, hf, threadShutdown, Function.update_of_ne hx, i3]
          · rw [n1]
            by_cases hx : x = y
            · subst hx; simp [World.call, World.onContext, hf, threadShutdown]
            · simp [World.call, World.onContext, hf, threadShutdown, Function.update_of_ne hx, i4, Ne.symm hx]
        | false =>
          have hi : ¬ Inside y h := by rw [← hins]; simp
          refine ⟨?_, ?_, fun x => ?_, fun x => ?_⟩
          · rw [u1]; simp [World.call, World.onContext, hf, threadShutdown, i1]
          · rw [k1]; simp [World.call, World.onContext, hf, threadShutdown, Sets, hi, i2]
          · rw [m1]
            by_cases hx : x = y
            · subst hx; simp [World.call, World.onContext, hf, threadShutdown, hm]
            · simp [World.call, World.onContext, hf, threadShutdown, Function.update_of_ne hx, i3]
          · rw [n1]
            by_cases hx : x = y
            · subst hx; simp [World.call, World.onContext, hf, threadShutdown]
            · simp [World.call, World.onContext, hf, threadShutdown, Function.update_of_ne hx, i4, Ne.symm hx]
    | destroy y ok =>
      have hmade := i3 y
      have hins := i4 y
      have hflag : ∀ x, x ≠ y → ((w.call (.destroy y ok)).2).flag x = w.flag x := by
        intro x hx
        cases hf : w.flag y <;> simp [World.call, World.onContext, hf, Function.update_of_ne hx]
      have hflag' : ((w.call (.destroy y ok)).2).flag y = none := by
        cases hf : w.flag y <;> simp [World.call, World.onContext, hf]
      refine ⟨?_, ?_, fun x => ?_, fun x => ?_⟩
      · rw [u1]
        cases hf : w.flag y with
        | none => simp [World.call, World.onContext, hf, i1]
        | some b => cases b <;> simp [World.call, World.onContext, hf, threadShutdown, i1]
      · rw [k1]
        cases hf : w.flag y with
        | none =>
          rw [hf] at hins
          have hi : ¬ Inside y h := by rw [← hins]; simp
          simp [World.call, World.onContext, hf, Sets, hi, i2]
        | some b =>
          rw [hf] at hins
          cases b with
          | true =>
            have hi : Inside y h := hins.mp rfl
            cases ok <;> simp [World.call, World.onContext, hf, threadShutdown, Sets, hi]
          | false =>
            have hi : ¬ Inside y h := by rw [← hins]; simp
            simp [World.call, World.onContext, hf, Sets, hi, i2]
      · rw [m1]
        by_cases hx : x = y
        · subst hx; simp [hflag']
        · rw [hflag x hx, i3]; simp [Ne.symm hx]
      · rw [n1]
        by_cases hx : x = y
        · subst hx; simp [hflag']
        · rw [hflag x hx, i4]; simp [Ne.symm hx]

/-! ### C166 -/

/-- After any calls of an application with any number of state contexts, what each call answers: creating a pairing
object raises an error iff the library is not initialised or was shut down since, is undefined iff it is initialised but
the last call with an effect on the math library failed, and succeeds otherwise. -/
theorem C166_pairing (h : List TCall) :
    (((World.run h).call .pairing).1 = .throw .runtimeError ↔ ¬ Up h) ∧
    (((World.run h).call .pairing).1 = .ub ↔ Up h ∧ ¬ MathUp h) ∧
    (((World.run h).call .pairing).1 = .ok () ↔ Up h ∧ MathUp h) := by
  obtain ⟨i1, i2, -, -⟩ := agrees h
  rw [← i1, ← i2]
  generalize World.run h = w
  cases hr : w.lib.ready <;> cases hm : w.lib.math <;> simp [World.call, newPairing, assertInit, hr, hm, Bind.bind, Res.bind]

/-- What the other calls answer: initialising fails iff the library is up, shutting down and making a context always
succeed, and a call on a context succeeds iff the object exists. -/
theorem C166_calls (h : List TCall) (ok : Bool) (x : Nat) :
    (((World.run h).call (.init ok)).1 = .throw .runtimeError ↔ Up h) ∧
    (((World.run h).call (.init ok)).1 = .ok () ↔ ¬ Up h) ∧
    ((World.run h).call .shutdown).1 = .ok () ∧ ((World.run h).call (.enter x ok)).1 = .ok () ∧
    (∀ c ∈ [TCall.again x ok, .leave x ok, .destroy x ok],
      (((World.run h).call c).1 = .ok () ↔ Made x h) ∧ (((World.run h).call c).1 = .ub ↔ ¬ Made x h)) := by
  obtain ⟨i1, i2, i3, i4⟩ := agrees h
  refine ⟨?_, ?_, rfl, rfl, ?_⟩
  · rw [← i1]
    generalize World.run h = w
    cases hr : w.lib.ready <;> simp [World.call, init, initialize', hr]
  · rw [← i1]
    generalize World.run h = w
    cases hr : w.lib.ready <;> simp [World.call, init, initialize', hr]
  · have := i3 x
    intro c hc
    rw [← this]
    generalize World.run h = w
    simp only [List.mem_cons, List.not_mem_nil, or_false] at hc
    rcases hc with rfl | rfl | rfl <;> cases hf : w.flag x <;> simp [World.call, World.onContext, hf]

/-- If RELIC never fails, creating a pairing object succeeds iff the library is up: whatever contexts were made, left or
destroyed in between, and never undefined. -/
theorem C166_no_failures (h : List TCall) (hinit : TCall.init false ∉ h)
    (hctx : ∀ x, ∀ c ∈ [TCall.enter x false, .again x false, .leave x false, .destroy x false], c ∉ h) :
    (((World.run h).call .pairing).1 = .ok () ↔ Up h) ∧ ((World.run h).call .pairing).1 ≠ .ub := by
  have hok : ∀ c ∈ h, ∀ m a, Sets a c m → c ≠ .shutdown → m = true := by
    intro c hc m a hs hn
    cases c with
    | init ok => cases ok; exacts [absurd hc hinit, hs.2]
    | shutdown => exact absurd rfl hn
    | pairing => exact hs.elim
    | enter x ok => cases ok; exacts [absurd hc (hctx x _ (by simp)), hs]
    | again x ok => cases ok; exacts [absurd hc (hctx x _ (by simp)), hs.2.2]
    | leave x ok => cases ok; exacts [absurd hc (hctx x _ (by simp)), hs.2]
    | destroy x ok => cases ok; exacts [absurd hc (hctx x _ (by simp)), hs.2]
  have key : ∀ h : List TCall, (∀ c ∈ h, ∀ m a, Sets a c m → c ≠ .shutdown → m = true) → Up h → MathUp h := by
    intro h
    induction h using List.reverseRecOn with
    | nil => intro _ h'; exact absurd h' (since_nil _ _)
    | append_singleton h c ih =>
      intro hok hu
      have hu' : (∃ ok, c = .init ok) ∨ ((¬ c = .shutdown) ∧ Up h) := (since_snoc _ _ h c).mp hu
      rw [mathUp_snoc]
      have hc : c ≠ .shutdown := by
        rcases hu' with ⟨ok, rfl⟩ | h'
        · simp
        · exact h'.1
      by_cases hs : ∃ m, Sets h c m
      · obtain ⟨m, hm⟩ := hs
        left
        have : m = true := hok c (by simp) m h hm hc
        exact this ▸ hm
      · right
        have hs' : ∀ m, ¬ Sets h c m := fun m hm => hs ⟨m, hm⟩
        refine ⟨hs', ih (fun d hd => hok d (by simp [hd])) ?_⟩
        rcases hu' with ⟨ok, rfl⟩ | h'
        · by_contra hn
          exact hs' ok ⟨hn, rfl⟩
        · exact h'.2
  obtain ⟨-, h2, h3⟩ := C166_pairing h
  refine ⟨h3.trans ⟨fun h' => h'.1, fun h' => ⟨h', key h hok h'⟩⟩, fun h' => ?_⟩
  obtain ⟨a, b⟩ := h2.mp h'
  exact b (key h hok a)

/-- Leaving or destroying a context the thread is inside initialises the math library again: after a shutdown of the
whole library this brings it back, although the library is not up. -/
theorem C166_revived (h : List TCall) (x : Nat) (hi : Inside x h) :
    ¬ Up (h ++ [.shutdown, .leave x true]) ∧ MathUp (h ++ [.shutdown, .leave x true]) ∧
    (World.run (h ++ [.shutdown, .leave x true])).lib.math = true := by
  have e : h ++ [TCall.shutdown, .leave x true] = (h ++ [.shutdown]) ++ [.leave x true] := by simp
  have hi' : Inside x (h ++ [.shutdown]) := (since_snoc _ _ _ _).mpr (.inr ⟨by simp, hi⟩)
  have hm : MathUp (h ++ [.shutdown, .leave x true]) := by
    rw [e, mathUp_snoc]; exact .inl ⟨hi', rfl⟩
  refine ⟨fun hu => ?_, hm, (agrees _).math.mpr hm⟩
  rw [e] at hu
  have h1 := (since_snoc _ _ _ _).mp hu
  rcases h1 with ⟨ok, h1⟩ | ⟨-, h1⟩
  · cases h1
  · rcases (since_snoc _ _ _ _).mp h1 with ⟨ok, h2⟩ | ⟨h2, -⟩
    · cases h2
    · exact h2 rfl

/-- A failed second context makes pairing objects undefined although the library is up. -/
example : ((World.run [.init true, .enter 0 true, .enter 1 false]).call .pairing).1 = .ub := rfl
example : ((World.run [.init true, .enter 0 true, .leave 0 true, .destroy 0 false]).call .pairing).1 = .ok () := rfl
example : Inside 0 [TCall.init true, .enter 0 true] := ⟨[.init true], .enter 0 true, [], rfl, ⟨true, rfl⟩, by simp⟩
example : TCall.init false ∉ [TCall.init true, .enter 3 true, .shutdown, .init true, .leave 3 true] ∧
    ∀ x, ∀ c ∈ [TCall.enter x false, .again x false, .leave x false, .destroy x false],
      c ∉ [TCall.init true, .enter 3 true, .shutdown, .init true, .leave 3 true] := by
  refine ⟨by decide, fun x c hc => ?_⟩
  simp only [List.mem_cons, List.not_mem_nil, or_false] at hc
  rcases hc with rfl | rfl | rfl | rfl <;> simp

end Lib
end Abe
