import Verif.Props.Sessions
import Verif.Props.StreamCtx
import Verif.Props.KeysExact
import Verif.Props.SymExact
/-!
# Exactly what stream contexts answer: C152

The specification is `StreamUse` in `Verif.Spec.Sessions`.
-/
set_option linter.unusedSimpArgs false
set_option linter.unusedSectionVars false
set_option autoImplicit false
namespace Abe
namespace StreamUse

/-- What a call on a context answers, and the context afterwards; an exception that is not caught leaves it as it is. -/
def seen1 (g : Gcm) (c : StreamCtx) : StreamCtx.Call → Res ((Sig × Bytes) × StreamCtx)
  | .keygen id rnd => do let r ← c.keygen id rnd; .ok ((.ret r.1, []), r.2)
  | .exportKey id => .ok ((.ret (c.exportKey id).1, (c.exportKey id).2.1), (c.exportKey id).2.2)
  | .load id blob rnd =>
    match c.loadPrivateKey id blob rnd with
    | .throw e => .ok ((.exc e, []), c)
    | r => do let r ← r; .ok ((.ret r.1, []), r.2)
  | .delete id => .ok ((.ret (c.deleteKey id).1, []), (c.deleteKey id).2)
  | .encInit id iv => do let r ← c.encInit id iv; .ok ((.ret r.1, r.2.1), r.2.2)
  | .encUpdate pt => do let r ← c.encUpdate g pt; .ok ((.ret r.1, r.2.1), r.2.2)
  | .encFinalize n => do let r ← c.encFinalize g n; .ok ((.ret r.1, r.2.1), r.2.2)
  | .decInit id iv tag => do let r ← c.decInit id iv tag; .ok ((.ret r.1, []), r.2)
  | .decUpdate ct => do let r ← c.decUpdate g ct; .ok ((.ret r.1, r.2.1), r.2.2)
  | .decFinalize => do let r ← c.decFinalize g; .ok ((.ret r.1, []), r.2)

/-- What a sequence of calls on a context answers. -/
def seen (g : Gcm) : StreamCtx → List StreamCtx.Call → Res (List (Sig × Bytes))
  | _, [] => .ok []
  | c, x :: xs => do
    let r ← seen1 g c x
    let l ← seen g r.2 xs
    .ok (r.1 :: l)

/-- The default associated data, passed on. -/
def zeros : Collected := { pending := List.replicate 16 0, any := true, fed := List.replicate 16 0 }

/-- The stream object that encrypts. -/
def EncIs (g : Gcm) : Running → Option Stream → Prop
  | .none, s => s = none
  | .some key iv data, s => ∃ t, s = some t ∧ Session.Goes g key (.enc iv zeros data) t
  | .stuck n, s => ∃ t key, s = some t ∧ Session.Goes g key (.stuck zeros n) t

/-- The stream object that decrypts. -/
def DecIs (g : Gcm) : Running → Option Stream → Prop
  | .none, s => s = none
  | .some key iv data, s => ∃ t tag, s = some t ∧ Session.Goes g key (.dec iv tag zeros data) t
  | .stuck _, _ => False

/-- What the user knows is true of the context. -/
def Knows (g : Gcm) (u : StreamUse) (c : StreamCtx) : Prop :=
  KeyStore.Same c.keys ⟨{ sec := u.key }, u.taken⟩ ∧ EncIs g u.enc c.enc ∧ DecIs g u.dec c.dec

def Told (g : Gcm) (u : StreamUse) (c : StreamCtx) (x : StreamCtx.Call) : Prop :=
  match u.answer g x with
  | none => seen1 g c x = .ub
  | some a => ∃ c', seen1 g c x = .ok (a, c') ∧ Knows g (u.next x) c'

variable {g : Gcm} {u : StreamUse} {c : StreamCtx}

theorem same_take (h : KeyStore.Same c.keys ⟨{ sec := u.key }, u.taken⟩) (id : Bytes) :
    (c.keys.getSecretKey id).1 = u.key id ∧
      KeyStore.Same (c.keys.getSecretKey id).2 ⟨{ sec := u.key }, fun j => j == id || u.taken j⟩ := by
  obtain ⟨h1, h2⟩ := KeyStore.same_step h (.getSec id)
  refine ⟨?_, h2⟩
  have : KeyStore.Out.key (c.keys.getSecretKey id).1 = KeyStore.Out.key (u.key id) := h1
  exact KeyStore.Out.key.inj this

theorem same_any (h : KeyStore.Same c.keys ⟨{ sec := u.key }, u.taken⟩) (id : Bytes) :
    (c.keys.getKey id).1 = u.key id ∧
      KeyStore.Same (c.keys.getKey id).2 ⟨{ sec := u.key }, fun j => j == id || u.taken j⟩ := by
  obtain ⟨h1, h2⟩ := KeyStore.same_step h (.getAny id)
  refine ⟨?_, h2.1, fun j => ?_⟩
  · have : KeyStore.Out.key (c.keys.getKey id).1 = KeyStore.Out.key (u.key id) := h1
    exact KeyStore.Out.key.inj this
  · have := h2.2 j
    simp only [KeyStore.Names.step, KeyStore.Names.next, Option.isNone_none, Bool.and_true] at this
    exact this

theorem same_put (h : KeyStore.Same c.keys ⟨{ sec := u.key }, u.taken⟩) (id : Bytes) (k : SymKey) :
    KeyStore.Same (c.keys.addKey id k .sec) ⟨{ sec := (u.put id k).key }, (u.put id k).taken⟩ :=
  (KeyStore.same_step h (.add id k .sec)).2

/-- Starting: the default associated data is passed on. -/
theorem default_enc {key iv : Bytes} {t : Stream} (h : Session.Goes g key (.enc iv {} []) t) :
    ∃ s, StreamCtx.defaultAad t = .ok (none, s) ∧ Session.Goes g key (.enc iv zeros []) s := by
  have e1 : ∃ s', Stream.call g t (.initAad none) = .ok ⟨.ret none, [], s'⟩ ∧
      Session.Goes g key (.enc iv { pending := List.replicate 16 0, any := true } []) s' :=
    Session.step_enc g key iv {} [] t h (.initAad none)
  obtain ⟨s1, h1, h2⟩ := e1
  have e2 : ∃ s', Stream.call g s1 .setAad = .ok ⟨.ret none, [], s'⟩ ∧ Session.Goes g key (.enc iv zeros []) s' :=
    Session.step_enc g key iv { pending := List.replicate 16 0, any := true } [] s1 h2 .setAad
  obtain ⟨s2, h3, h4⟩ := e2
  have h1' : t.initAad none = s1 := by
    have := Res.ok.inj h1
    exact congrArg Step.st this
  refine ⟨s2, ?_, h4⟩
  rw [StreamCtx.defaultAad, h1', show s1.setAad = .ok ⟨.ret none, [], s2⟩ from h3]
  rfl

theorem default_dec {key iv tag : Bytes} {t : Stream} (h : Session.Goes g key (.dec iv tag {} []) t) :
    ∃ s, StreamCtx.defaultAad t = .ok (none, s) ∧ Session.Goes g key (.dec iv tag zeros []) s := by
  have e1 : ∃ s', Stream.call g t (.initAad none) = .ok ⟨.ret none, [], s'⟩ ∧
      Session.Goes g key (.dec iv tag { pending := List.replicate 16 0, any := true } []) s' :=
    Session.step_dec g key iv tag {} [] t h (.initAad none)
  obtain ⟨s1, h1, h2⟩ := e1
  have e2 : ∃ s', Stream.call g s1 .setAad = .ok ⟨.ret none, [], s'⟩ ∧ Session.Goes g key (.dec iv tag zeros []) s' :=
    Session.step_dec g key iv tag { pending := List.replicate 16 0, any := true } [] s1 h2 .setAad
  obtain ⟨s2, h3, h4⟩ := e2
  have h1' : t.initAad none = s1 := by
    have := Res.ok.inj h1
    exact congrArg Step.st this
  refine ⟨s2, ?_, h4⟩
  rw [StreamCtx.defaultAad, h1', show s1.setAad = .ok ⟨.ret none, [], s2⟩ from h3]
  rfl

theorem told_keygen (h : Knows g u c) (id rnd : Bytes) : Told g u c (.keygen id rnd) := by
  have ht : c.keys.checkSecretKey id = u.taken id := h.1.2 id
  unfold Told
  simp only [answer, seen1, StreamCtx.keygen, next, ht]
  cases e : u.taken id with
  | true => exact ⟨c, rfl, by simpa using h⟩
  | false =>
    rw [SymKey.generate, SymKey.setSymmetricKey]
    by_cases hr : rnd.length = 16 ∨ rnd.length = 32
    · rw [if_neg (show ¬ (rnd.length ≠ shortKeyBytes ∧ rnd.length ≠ symKeyBytes) from fun h => hr.elim h.1 h.2)]
      refine ⟨_, by simp only [Bool.false_eq_true, if_false, if_pos hr, Res.ok_bind]; rfl, ?_⟩
      rw [if_pos ⟨rfl, hr⟩]
      exact ⟨same_put h.1 id _, h.2.1, h.2.2⟩
    · rw [if_pos (show rnd.length ≠ shortKeyBytes ∧ rnd.length ≠ symKeyBytes from
        ⟨fun e => hr (Or.inl e), fun e => hr (Or.inr e)⟩)]
      refine ⟨c, by simp only [Bool.false_eq_true, if_false, if_neg hr, Res.ok_bind], ?_⟩
      rw [if_neg (fun h => hr h.2)]
      exact h

theorem told_export (h : Knows g u c) (id : Bytes) : Told g u c (.exportKey id) := by
  obtain ⟨h1, h2⟩ := same_any h.1 id
  unfold Told
  simp only [answer, seen1, StreamCtx.exportKey, next, h1]
  cases e : u.key id with
  | none => exact ⟨_, rfl, h2, h.2.1, h.2.2⟩
  | some k => exact ⟨_, rfl, h2, h.2.1, h.2.2⟩

theorem told_load (h : Knows g u c) (id blob rnd : Bytes) : Told g u c (.load id blob rnd) := by
  have hd := StreamCtx.load_defined {} blob rnd
  unfold Told
  simp only [answer, seen1, StreamCtx.loadPrivateKey, next]
  cases hl : SymKey.load {} blob rnd with
  | ok r => exact ⟨_, rfl, same_put h.1 id _, h.2.1, h.2.2⟩
  | throw e => cases e <;> exact ⟨_, rfl, h⟩
  | ub => rw [hl] at hd; exact hd.elim
  | abort => rw [hl] at hd; exact hd.elim

theorem told_delete (h : Knows g u c) (id : Bytes) : Told g u c (.delete id) := by
  obtain ⟨h1, h2⟩ := KeyStore.same_step h.1 (.delete id)
  have h1' : KeyStore.Out.code (c.keys.deleteKey id).1 = KeyStore.Out.code none := h1
  have h1'' := KeyStore.Out.code.inj h1'
  unfold Told
  simp only [answer, seen1, StreamCtx.deleteKey, next, h1'']
  refine ⟨_, rfl, ?_⟩
  have hr : ∀ j, (c.keys.deleteKey id).2.checkSecretKey j = if j = id then (u.key id).isNone else u.taken j := by
    intro j
    have := h2.2 j
    simp only [KeyStore.Names.step, KeyStore.Names.next, Option.isNone_none, Bool.true_and] at this
    exact this
  have hp : ∀ j, (SMap.find j (c.keys.deleteKey id).2.pub).join = none := by
    intro j
    have := h2.1.1 j
    simp only [KeyStore.Names.step, KeyStore.Spec.step, ite_self] at this
    exact this
  have hs : ∀ j, (SMap.find j (c.keys.deleteKey id).2.sec).join = if j = id then none else u.key j := h2.1.2
  cases e : u.key id with
  | none =>
    simp only [Option.isSome_none, Bool.false_eq_true, if_false]
    refine ⟨⟨⟨hp, fun j => ?_⟩, fun j => ?_⟩, h.2.1, h.2.2⟩
    · refine (hs j).trans ?_
      show _ = u.key j
      split
      · next ej => rw [ej, e]
      · rfl
    · refine (hr j).trans ?_
      show _ = (j == id || u.taken j)
      by_cases ej : j = id
      · simp [ej, e]
      · simp [ej]
  | some k =>
    simp only [Option.isSome_some, if_true]
    refine ⟨⟨⟨hp, hs⟩, fun j => ?_⟩, h.2.1, h.2.2⟩
    refine (hr j).trans ?_
    show _ = (j != id && u.taken j)
    by_cases ej : j = id
    · simp [ej, e]
    · simp [ej]

theorem told_encInit (h : Knows g u c) (id iv : Bytes) : Told g u c (.encInit id iv) := by
  obtain ⟨h1, h2⟩ := same_take h.1 id
  unfold Told
  simp only [answer, start, seen1, StreamCtx.encInit, next, h1]
  cases e : u.key id with
  | none => exact ⟨_, rfl, h2, rfl, h.2.2⟩
  | some k =>
    have hs := Session.step_idle g k.data 0 { key := k.data } ⟨rfl, rfl, rfl, rfl, rfl, rfl⟩ (.encInit iv)
    unfold Session.Step1 at hs
    simp only [Session.answer, Stream.call] at hs
    by_cases hc : k.data.length < 32 ∨ iv = []
    · simp only [if_pos hc] at hs ⊢
      rw [hs]; rfl
    · simp only [if_neg hc] at hs ⊢
      obtain ⟨t, h3, h4⟩ := hs
      obtain ⟨s, h5, h6⟩ := default_enc (g := g) h4
      rw [h3, Res.ok_bind]
      dsimp only
      rw [h5]
      exact ⟨_, rfl, h2, ⟨s, rfl, h6⟩, h.2.2⟩

theorem told_decInit (h : Knows g u c) (id iv tag : Bytes) : Told g u c (.decInit id iv tag) := by
  obtain ⟨h1, h2⟩ := same_take h.1 id
  unfold Told
  simp only [answer, start, seen1, StreamCtx.decInit, next, h1]
  cases e : u.key id with
  | none => exact ⟨_, rfl, h2, h.2.1, rfl⟩
  | some k =>
    have hs := Session.step_idle g k.data 0 { key := k.data } ⟨rfl, rfl, rfl, rfl, rfl, rfl⟩ (.decInit iv tag)
    unfold Session.Step1 at hs
    simp only [Session.answer, Stream.call] at hs
    by_cases hc : k.data.length < 32 ∨ iv = []
    · simp only [if_pos hc] at hs ⊢
      rw [hs]; rfl
    · simp only [if_neg hc] at hs ⊢
      obtain ⟨t, h3, h4⟩ := hs
      obtain ⟨s, h5, h6⟩ := default_dec (g := g) h4
      rw [h3, Res.ok_bind]
      dsimp only
      rw [h5]
      exact ⟨_, rfl, h2, h.2.1, ⟨s, tag, rfl, h6⟩⟩

theorem told_encUpdate (h : Knows g u c) (m : Bytes) : Told g u c (.encUpdate m) := by
  have he := h.2.1
  unfold Told
  simp only [answer, seen1, StreamCtx.encUpdate, next]
  cases e : u.enc with
  | none =>
    rw [e] at he
    rw [show c.enc = none from he]
    exact ⟨_, rfl, h⟩
  | stuck n =>
    rw [e] at he
    obtain ⟨t, key, h1, h2⟩ := he
    have hs : ∃ s', t.encUpdate g m = .ok ⟨.exc .invalidInput, [], s'⟩ ∧ Session.Goes g key (.stuck zeros n) s' :=
      Session.step_stuck g key zeros n t h2 (.encUpdate m)
    obtain ⟨s, h3, h4⟩ := hs
    rw [h1]
    dsimp only
    rw [h3]
    exact ⟨_, rfl, h.1, by rw [e]; exact ⟨s, key, rfl, h4⟩, h.2.2⟩
  | some key iv data =>
    rw [e] at he
    obtain ⟨t, h1, h2⟩ := he
    have hs := Session.step_enc g key iv zeros data t h2 (.encUpdate m)
    unfold Session.Step1 at hs
    simp only [Session.answer, Session.next, Stream.call] at hs
    rw [h1]
    by_cases hm : m = []
    · simp only [if_pos hm] at hs ⊢
      obtain ⟨s, h3, h4⟩ := hs
      rw [h3]
      exact ⟨_, rfl, h.1, ⟨s, rfl, h4⟩, h.2.2⟩
    · simp only [if_neg hm] at hs ⊢
      obtain ⟨s, h3, h4⟩ := hs
      rw [h3]
      exact ⟨_, rfl, h.1, ⟨s, rfl, h4⟩, h.2.2⟩

theorem told_encFinalize (h : Knows g u c) (n : Nat) : Told g u c (.encFinalize n) := by
  have he := h.2.1
  unfold Told
  simp only [answer, seen1, StreamCtx.encFinalize, next]
  cases e : u.enc with
  | none =>
    rw [e] at he
    rw [show c.enc = none from he]
    exact ⟨_, rfl, h⟩
  | stuck k =>
    rw [e] at he
    obtain ⟨t, key, h1, h2⟩ := he
    have hs : ∃ s', t.encFinalize g n = .ok ⟨.exc (if n = k then .unexpectedExtraBytes else .invalidInput), [], s'⟩ ∧
        Session.Goes g key (.stuck zeros k) s' := Session.step_stuck g key zeros k t h2 (.encFinalize n)
    obtain ⟨s, h3, h4⟩ := hs
    rw [h1]
    dsimp only
    rw [h3]
    exact ⟨_, rfl, h.1, by rw [e]; exact ⟨s, key, rfl, h4⟩, h.2.2⟩
  | some key iv data =>
    rw [e] at he
    obtain ⟨t, h1, h2⟩ := he
    have hs := Session.step_enc g key iv zeros data t h2 (.encFinalize n)
    unfold Session.Step1 at hs
    simp only [Session.answer, Session.next, Stream.call] at hs
    rw [h1]
    by_cases hd : data = []
    · simp only [if_pos hd] at hs ⊢
      obtain ⟨s, h3, h4⟩ := hs
      rw [h3]
      exact ⟨_, rfl, h.1, rfl, h.2.2⟩
    · simp only [if_neg hd] at hs ⊢
      by_cases hn : n ≠ data.flatten.length
      · have ho : data = [] ∨ n ≠ data.flatten.length := Or.inr hn
        simp only [if_pos hn, if_pos ho] at hs ⊢
        obtain ⟨s, h3, h4⟩ := hs
        rw [h3]
        exact ⟨_, rfl, h.1, by rw [e]; exact ⟨s, rfl, h4⟩, h.2.2⟩
      · have ho : ¬ (data = [] ∨ n ≠ data.flatten.length) := fun h => h.elim hd hn
        simp only [if_neg hn, if_neg ho] at hs ⊢
        by_cases hb : n < 2 ^ 32
        · simp only [if_pos hb] at hs ⊢
          obtain ⟨s, h3, h4⟩ := hs
          rw [h3]
          exact ⟨_, rfl, h.1, rfl, h.2.2⟩
        · simp only [if_neg hb] at hs ⊢
          obtain ⟨s, h3, h4⟩ := hs
          rw [h3]
          exact ⟨_, rfl, h.1, ⟨s, key, rfl, h4⟩, h.2.2⟩

theorem told_decUpdate (h : Knows g u c) (m : Bytes) : Told g u c (.decUpdate m) := by
  have he := h.2.2
  unfold Told
  simp only [answer, seen1, StreamCtx.decUpdate, next]
  cases e : u.dec with
  | none =>
    rw [e] at he
    rw [show c.dec = none from he]
    exact ⟨_, rfl, h⟩
  | stuck n => rw [e] at he; exact he.elim
  | some key iv data =>
    rw [e] at he
    obtain ⟨t, tag, h1, h2⟩ := he
    have hs := Session.step_dec g key iv tag zeros data t h2 (.decUpdate m)
    unfold Session.Step1 at hs
    simp only [Session.answer, Session.next, Stream.call] at hs
    rw [h1]
    by_cases hm : m = []
    · simp only [if_pos hm] at hs ⊢
      obtain ⟨s, h3, h4⟩ := hs
      rw [h3, hm, Session.drop_crypt]
      exact ⟨_, rfl, h.1, h.2.1, ⟨s, tag, rfl, h4⟩⟩
    · simp only [if_neg hm] at hs ⊢
      obtain ⟨s, h3, h4⟩ := hs
      rw [h3]
      exact ⟨_, rfl, h.1, h.2.1, ⟨s, tag, rfl, h4⟩⟩

theorem told_decFinalize (h : Knows g u c) : Told g u c .decFinalize := by
  have he := h.2.2
  unfold Told
  simp only [answer, seen1, StreamCtx.decFinalize, next]
  cases e : u.dec with
  | none =>
    rw [e] at he
    rw [show c.dec = none from he]
    exact ⟨_, rfl, h.1, h.2.1, he⟩
  | stuck n => rw [e] at he; exact he.elim
  | some key iv data =>
    rw [e] at he
    obtain ⟨t, tag, h1, h2⟩ := he
    have hs := Session.step_dec g key iv tag zeros data t h2 .decFinalize
    unfold Session.Step1 at hs
    simp only [Session.answer, Session.next, Stream.call] at hs
    rw [h1]
    by_cases hd : data = []
    · simp only [if_pos hd] at hs
      obtain ⟨s, h3, h4⟩ := hs
      dsimp only
      rw [h3]
      exact ⟨_, rfl, h.1, h.2.1, rfl⟩
    · simp only [if_neg hd] at hs
      by_cases ht : 1 ≤ tag.length ∧ tag.length ≤ 16 ∧ tag <+: g.mac (key.take 32) iv zeros.fed data.flatten
      · simp only [if_pos ht] at hs
        obtain ⟨s, h3, h4⟩ := hs
        dsimp only
        rw [h3]
        exact ⟨_, rfl, h.1, h.2.1, rfl⟩
      · simp only [if_neg ht] at hs
        obtain ⟨s, h3, h4⟩ := hs
        dsimp only
        rw [h3]
        exact ⟨_, rfl, h.1, h.2.1, rfl⟩

theorem told (h : Knows g u c) (x : StreamCtx.Call) : Told g u c x := by
  cases x with
  | keygen id rnd => exact told_keygen h id rnd
  | exportKey id => exact told_export h id
  | load id blob rnd => exact told_load h id blob rnd
  | delete id => exact told_delete h id
  | encInit id iv => exact told_encInit h id iv
  | encUpdate m => exact told_encUpdate h m
  | encFinalize n => exact told_encFinalize h n
  | decInit id iv tag => exact told_decInit h id iv tag
  | decUpdate m => exact told_decUpdate h m
  | decFinalize => exact told_decFinalize h

theorem seen_eq (g : Gcm) : ∀ (xs : List StreamCtx.Call) (u : StreamUse) (c : StreamCtx), Knows g u c →
    seen g c xs = Session.toRes (u.answers g xs)
  | [], _, _, _ => rfl
  | x :: xs, u, c, h => by
    have hs := told h x
    unfold Told at hs
    rw [seen, answers]
    cases ha : u.answer g x with
    | none => rw [ha] at hs; dsimp only at hs; rw [hs]; rfl
    | some a =>
      rw [ha] at hs
      obtain ⟨c', h1, h2⟩ := hs
      rw [h1, Res.ok_bind]
      dsimp only
      rw [seen_eq g xs _ c' h2]
      cases answers g (u.next x) xs <;> rfl

/-- C152: whatever calls are made on a new stream context, in whatever order: the codes, the exceptions and the bytes
given out by all of them, and whether one of them is undefined, are those of the specification. -/
theorem C152_answers (g : Gcm) (xs : List StreamCtx.Call) :
    seen g {} xs = Session.toRes (({} : StreamUse).answers g xs) :=
  seen_eq g xs _ _ ⟨⟨⟨fun _ => rfl, fun _ => rfl⟩, fun _ => rfl⟩, rfl, rfl⟩

/-- Histories that differ only in the tags passed to the starts of decryptions. -/
inductive SameButTags : List StreamCtx.Call → List StreamCtx.Call → Prop
  | nil : SameButTags [] []
  | same (x : StreamCtx.Call) {xs ys : List StreamCtx.Call} : SameButTags xs ys → SameButTags (x :: xs) (x :: ys)
  | tag (id iv tag tag' : Bytes) {xs ys : List StreamCtx.Call} : SameButTags xs ys →
      SameButTags (.decInit id iv tag :: xs) (.decInit id iv tag' :: ys)

/-- C152: nothing a stream context ever answers depends on the tags it is given. -/
theorem C152_tags_ignored (g : Gcm) {xs ys : List StreamCtx.Call} (h : SameButTags xs ys) :
    seen g {} xs = seen g {} ys := by
  rw [C152_answers, C152_answers]
  congr 1
  generalize ({} : StreamUse) = u
  induction h generalizing u with
  | nil => rfl
  | same x _ ih => rw [answers, answers, ih]
  | tag id iv tag tag' _ ih =>
    rw [answers, answers, show u.next (.decInit id iv tag) = u.next (.decInit id iv tag') from rfl,
      show u.answer g (.decInit id iv tag) = u.answer g (.decInit id iv tag') from rfl, ih]

/-- A tag and its absence, after a key was generated and something was encrypted. -/
example : SameButTags
    [.keygen b!"k" Sym.Ex.key32, .encInit b!"k" Sym.Ex.iv16, .encUpdate [1], .decInit b!"k" Sym.Ex.iv16 Sym.Ex.iv16,
      .decUpdate [5], .decFinalize]
    [.keygen b!"k" Sym.Ex.key32, .encInit b!"k" Sym.Ex.iv16, .encUpdate [1], .decInit b!"k" Sym.Ex.iv16 [],
      .decUpdate [5], .decFinalize] :=
  .same _ (.same _ (.same _ (.tag _ _ _ _ (.same _ (.same _ .nil)))))

theorem answers_undefined (g : Gcm) : ∀ (xs : List StreamCtx.Call) (u : StreamUse),
    u.answers g xs = none ↔ ∃ pre x post, xs = pre ++ x :: post ∧ (pre.foldl next u).answer g x = none
  | [], u => by simp [answers]
  | x :: xs, u => by
    rw [answers]
    constructor
    · intro h
      cases ha : u.answer g x with
      | none => exact ⟨[], x, xs, rfl, ha⟩
      | some a =>
        rw [ha] at h
        cases hb : (u.next x).answers g xs with
        | none =>
          obtain ⟨pre, c, post, h1, h2⟩ := (answers_undefined g xs _).mp hb
          exact ⟨x :: pre, c, post, by rw [h1]; rfl, h2⟩
        | some l =>
          rw [show (do let a ← some a; let l ← (u.next x).answers g xs; some (a :: l)) = some (a :: l) by
            rw [hb]; rfl] at h
          cases h
    · rintro ⟨pre, c, post, h1, h2⟩
      cases pre with
      | nil => cases h1; rw [show u.answer g x = none from h2]; rfl
      | cons y pre =>
        obtain ⟨rfl, e⟩ := List.cons.inj h1
        have e' : xs = pre ++ c :: post := e
        rw [e', (answers_undefined g _ _).mpr ⟨pre, c, post, rfl, h2⟩]
        cases u.answer g x <;> rfl

theorem answer_undefined (g : Gcm) (u : StreamUse) (x : StreamCtx.Call) :
    u.answer g x = none ↔ ∃ id iv k, (x = .encInit id iv ∨ ∃ tag, x = .decInit id iv tag) ∧ u.key id = some k ∧
      (k.data.length < 32 ∨ iv = []) := by
  have hst : ∀ id iv out, u.start id iv out = none ↔ ∃ k, u.key id = some k ∧ (k.data.length < 32 ∨ iv = []) := by
    intro id iv out
    unfold start
    cases u.key id with
    | none => simp
    | some k =>
      by_cases hc : k.data.length < 32 ∨ iv = []
      · simp [hc]
      · simp only [if_neg hc]
        refine ⟨(fun h => by cases h), ?_⟩
        rintro ⟨k', e, h⟩
        cases e
        exact absurd h hc
  constructor
  · intro h
    cases x with
    | encInit id iv =>
      obtain ⟨k, h1, h2⟩ := (hst id iv iv).mp h
      exact ⟨id, iv, k, Or.inl rfl, h1, h2⟩
    | decInit id iv tag =>
      obtain ⟨k, h1, h2⟩ := (hst id iv []).mp h
      exact ⟨id, iv, k, Or.inr ⟨tag, rfl⟩, h1, h2⟩
    | load id blob rnd =>
      have hd := StreamCtx.load_defined {} blob rnd
      simp only [answer] at h
      split at h
      · cases h
      · cases h
      · cases h
      · next h1 h2 h3 =>
        cases hl : SymKey.load {} blob rnd with
        | ok r => exact absurd hl (h1 r)
        | throw e => exact absurd hl (h3 e)
        | ub => rw [hl] at hd; exact hd.elim
        | abort => rw [hl] at hd; exact hd.elim
    | keygen id rnd => simp [answer] at h
    | exportKey id => simp only [answer] at h; split at h <;> cases h
    | delete id => simp [answer] at h
    | encUpdate m =>
      simp only [answer] at h
      split at h
      · split at h <;> cases h
      · cases h
    | encFinalize n =>
      simp only [answer] at h
      split at h
      · cases h
      · cases h
      · split at h
        · cases h
        · split at h
          · cases h
          · split at h <;> cases h
    | decUpdate m => simp only [answer] at h; split at h <;> cases h
    | decFinalize => simp only [answer] at h; split at h <;> cases h
  · rintro ⟨id, iv, k, rfl | ⟨tag, rfl⟩, h1, h2⟩
    · exact (hst id iv iv).mpr ⟨k, h1, h2⟩
    · exact (hst id iv []).mpr ⟨k, h1, h2⟩

/-- C152: a history is undefined exactly if an encryption or a decryption is started with a stored key of less than 32
bytes, or with an empty IV under a name with a key. -/
theorem C152_undefined (g : Gcm) (xs : List StreamCtx.Call) :
    seen g {} xs = .ub ↔ ∃ pre x post id iv k, xs = pre ++ x :: post ∧
      (x = .encInit id iv ∨ ∃ tag, x = .decInit id iv tag) ∧ (pre.foldl next {}).key id = some k ∧
      (k.data.length < 32 ∨ iv = []) := by
  rw [C152_answers]
  have : Session.toRes (({} : StreamUse).answers g xs) = .ub ↔ ({} : StreamUse).answers g xs = none := by
    cases ({} : StreamUse).answers g xs <;> simp [Session.toRes]
  rw [this, answers_undefined]
  constructor
  · rintro ⟨pre, x, post, h1, h2⟩
    obtain ⟨id, iv, k, h3, h4, h5⟩ := (answer_undefined g _ x).mp h2
    exact ⟨pre, x, post, id, iv, k, h1, h3, h4, h5⟩
  · rintro ⟨pre, x, post, id, iv, k, h1, h3, h4, h5⟩
    exact ⟨pre, x, post, h1, (answer_undefined g _ x).mpr ⟨id, iv, k, h3, h4, h5⟩⟩

/-- Two histories with a key of 16 bytes: the one that uses it is undefined, the one that does not is not. -/
example (g : Gcm) : seen g {} [.keygen b!"k" Sym.Ex.iv16, .encInit b!"k" Sym.Ex.iv16] = .ub ∧
    seen g {} [.keygen b!"k" Sym.Ex.iv16, .encInit b!"l" Sym.Ex.iv16] ≠ .ub := by
  rw [C152_answers, C152_answers]
  exact ⟨rfl, by intro h; cases h⟩

/-! ### Loading keys -/

/-- The key in a header and a field of key bytes: a short header tells nothing; a longer one consists of version,
algorithm, 16 bytes and a name, and the version is not looked at. -/
inductive HoldsKey (key : Bytes) : Bytes → SymKey → Prop
  | bare (header : Bytes) : 2 ≤ header.length → header.length < 18 → HoldsKey key header { data := key }
  | full (v alg : UInt8) (uid id : Bytes) : uid.length = 16 → id ≠ [] → alg = 70 ∨ alg = 71 ∨ alg = 72 →
      HoldsKey key (v :: alg :: (uid ++ id)) { alg := alg, uid := uid, id := id, data := key }

theorem full_header {header : Bytes} (h : 18 ≤ header.length) :
    ∃ v alg uid id, header = v :: alg :: (uid ++ id) ∧ uid.length = 16 := by
  obtain _ | ⟨v, _ | ⟨alg, t⟩⟩ := header
  · simp at h
  · simp at h
  · refine ⟨v, alg, t.take 16, t.drop 16, by rw [List.take_append_drop], ?_⟩
    simp only [List.length_cons] at h
    rw [List.length_take]; omega

theorem setKey_iff (k k' : SymKey) (b : Bytes) :
    k.setSymmetricKey b = .ok k' ↔ (b.length = 16 ∨ b.length = 32) ∧ k' = { k with data := b } := by
  rw [SymKey.setSymmetricKey]
  by_cases hb : b.length = 16 ∨ b.length = 32
  · rw [if_neg (show ¬ (b.length ≠ shortKeyBytes ∧ b.length ≠ symKeyBytes) from fun h => hb.elim h.1 h.2)]
    exact ⟨fun h => ⟨hb, (Res.ok.inj h).symm⟩, (fun h => by rw [h.2])⟩
  · rw [if_pos (show b.length ≠ shortKeyBytes ∧ b.length ≠ symKeyBytes from
      ⟨fun e => hb (Or.inl e), fun e => hb (Or.inr e)⟩)]
    exact ⟨(fun h => by cases h), fun h => absurd h.1 hb⟩

theorem new_iff (id uid : Bytes) (hu : uid.length = 16) (alg : UInt8) (rnd : Bytes) (k : SymKey) :
    SymKey.new id (some uid) alg rnd = .ok k ↔
      id ≠ [] ∧ (alg = 70 ∨ alg = 71 ∨ alg = 72) ∧ k = { alg := alg, uid := uid, id := id } := by
  rw [SymKey.new]
  by_cases hi : id = []
  · rw [if_pos (by rw [hi]; rfl)]
    exact ⟨(fun h => by cases h), fun h => absurd hi h.1⟩
  · rw [if_neg (Session.len_zero hi)]
    by_cases ha : alg = 70 ∨ alg = 71 ∨ alg = 72
    · have hs : getSchemeID alg = .ok alg := if_pos (by rcases ha with rfl | rfl | rfl <;> decide)
      rw [hs, Res.ok_bind, if_neg (fun h => h ha), show SymKey.pickUid (some uid) rnd = uid from if_pos hu]
      exact ⟨fun h => ⟨hi, ha, (Res.ok.inj h).symm⟩, (fun h => by rw [h.2.2])⟩
    · refine ⟨fun h => ?_, fun h => absurd h.2.1 ha⟩
      obtain ⟨a, -, h⟩ := (Res.bind_eq_ok _ _ _).mp h
      rw [if_pos ha] at h
      cases h

theorem sub_uid (v alg : UInt8) (uid id : Bytes) (hu : uid.length = 16) :
    BS.getSubset (v :: alg :: (uid ++ id)) 2 uidLen = uid := by
  rw [BS.getSubset, if_pos (by simp only [List.length_cons, List.length_append, hu, uidLen]; omega)]
  exact List.take_left' hu

theorem sub_id (v alg : UInt8) (uid id : Bytes) (hu : uid.length = 16) :
    BS.getSubset (v :: alg :: (uid ++ id)) (2 + uidLen) ((v :: alg :: (uid ++ id)).length - uidLen - 2) = id := by
  rw [BS.getSubset, if_pos (by simp only [List.length_cons, List.length_append, hu, uidLen]; omega)]
  have : (v :: alg :: (uid ++ id)).drop (2 + uidLen) = id := by
    show (uid ++ id).drop 16 = id
    exact List.drop_left' hu
  rw [this]
  exact List.take_of_length_le (by simp only [List.length_cons, List.length_append, hu, uidLen]; omega)

/-- C152: exactly which bytes are loaded as a key, and which key they are: none at all, which gives an empty key, or two
fields, the second of 16 or 32 bytes. -/
theorem C152_load (blob rnd : Bytes) (r : Option Err × SymKey) :
    SymKey.load {} blob rnd = .ok r ↔ (blob = [] ∧ r = (some .invalidLength, {})) ∨
      ∃ header key rest k, Fields blob [header, key] rest ∧ (key.length = 16 ∨ key.length = 32) ∧
        HoldsKey key header k ∧ r = (none, k) := by
  constructor
  · intro h
    rw [SymKey.load] at h
    by_cases hb : blob = []
    · rw [if_pos (by rw [hb]; rfl)] at h
      exact Or.inl ⟨hb, (Res.ok.inj h).symm⟩
    rw [if_neg (Session.len_zero hb)] at h
    obtain ⟨⟨header, i⟩, h1, h⟩ := (Res.bind_eq_ok _ _ _).mp h
    obtain ⟨f, s, rfl, hf, rfl⟩ := smartUnpack_iff.mp h1
    dsimp only at h
    by_cases hl : header.length < 2
    · rw [if_pos hl] at h; cases h
    rw [if_neg hl] at h
    obtain ⟨alg, h2, h⟩ := (Res.bind_eq_ok _ _ _).mp h
    have hcomm : (do
        let key ← (if uidLen + 2 ≤ header.length then
            SymKey.new (BS.getSubset header (2 + uidLen) (header.length - uidLen - 2)) (some (BS.getSubset header 2 uidLen)) alg rnd
          else .ok {})
        let x ← BS.smartUnpack (f ++ s) f.length
        let key ← key.setSymmetricKey x.1
        .ok (none, key)) = Res.ok r := by
      rw [← h]; split <;> rfl
    obtain ⟨k0, h3, h⟩ := (Res.bind_eq_ok _ _ _).mp hcomm
    obtain ⟨⟨kb, j⟩, h4, h⟩ := (Res.bind_eq_ok _ _ _).mp h
    obtain ⟨f2, s2, rfl, hf2, rfl⟩ := smartUnpack_at_iff.mp h4
    obtain ⟨k1, h5, h⟩ := (Res.bind_eq_ok _ _ _).mp h
    obtain ⟨h6, rfl⟩ := (setKey_iff _ _ _).mp h5
    cases h
    refine Or.inr ⟨header, kb, s2, _, .cons hf (.cons hf2 (.nil s2)), h6, ?_, rfl⟩
    by_cases hh : 18 ≤ header.length
    · obtain ⟨v, alg', uid, id, rfl, hu⟩ := full_header hh
      cases h2
      rw [if_pos (show uidLen + 2 ≤ _ from hh)] at h3
      rw [sub_uid v alg uid id hu, sub_id v alg uid id hu] at h3
      obtain ⟨h7, h8, rfl⟩ := (new_iff id uid hu alg rnd k0).mp h3
      exact .full v alg uid id hu h7 h8
    · rw [if_neg (show ¬ uidLen + 2 ≤ header.length from hh)] at h3
      cases h3
      exact .bare header (by omega) (by omega)
  · rintro (⟨rfl, rfl⟩ | ⟨header, key, rest, k, hz, hk, hh, rfl⟩)
    · rfl
    · obtain ⟨f, s, rfl, hf, hz⟩ := fields_cons_inv hz
      obtain ⟨f2, s2, rfl, hf2, hz⟩ := fields_cons_inv hz
      have hb : f ++ (f2 ++ s2) ≠ [] := fun h => hf.ne_nil (List.append_eq_nil_iff.mp h).1
      rw [SymKey.load, if_neg (Session.len_zero hb), smartUnpack_iff.mpr ⟨f, _, rfl, hf, rfl⟩, Res.ok_bind]
      have h4 : BS.smartUnpack (f ++ (f2 ++ s2)) f.length = .ok (key, (f ++ f2).length) :=
        smartUnpack_at_iff.mpr ⟨f2, s2, rfl, hf2, rfl⟩
      dsimp only
      cases hh with
      | bare _ h1 h2 =>
        obtain _ | ⟨a, _ | ⟨b, t⟩⟩ := header
        · simp at h1
        · simp at h1
        rw [if_neg (by omega), show BS.atR (a :: b :: t) 1 = .ok b from rfl, Res.ok_bind,
          if_neg (show ¬ uidLen + 2 ≤ _ from by simp only [uidLen]; omega), Res.ok_bind, h4, Res.ok_bind]
        dsimp only
        rw [(setKey_iff _ _ _).mpr ⟨hk, rfl⟩]
        rfl
      | full v alg uid id hu hi ha =>
        have hl : 18 ≤ (v :: alg :: (uid ++ id)).length := by simp [hu]
        rw [if_neg (by omega), show BS.atR (v :: alg :: (uid ++ id)) 1 = .ok alg from rfl, Res.ok_bind,
          if_pos (show uidLen + 2 ≤ _ from hl), sub_uid v alg uid id hu, sub_id v alg uid id hu, (new_iff id uid hu alg rnd _).mpr ⟨hi, ha, rfl⟩, Res.ok_bind, h4, Res.ok_bind]
        dsimp only
        rw [(setKey_iff _ _ _).mpr ⟨hk, rfl⟩]
        rfl

/-- A key of 32 bytes with a header of two bytes, and something behind it. -/
example (rnd : Bytes) : SymKey.load {} (0xA1 :: 2 :: 7 :: 8 :: 0xA1 :: 32 :: (Sym.Ex.key32 ++ [9])) rnd =
    .ok (none, { data := Sym.Ex.key32 }) := by
  refine (C152_load _ _ _).mpr (Or.inr ⟨[7, 8], Sym.Ex.key32, [9], _, ?_, Or.inr rfl, .bare _ (by decide) (by decide), rfl⟩)
  exact Fields.cons (.short 2 [7, 8] rfl) (.cons (.short 32 Sym.Ex.key32 rfl) (.nil [9]))

end StreamUse
end Abe
