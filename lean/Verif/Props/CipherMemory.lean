import Verif.Proof.CipherMemory
import Verif.Props.StreamCtx
/-!
# The memory of symmetric encryption: C122

`g : Gcm` stands for AES-256-GCM; nothing is assumed about it but that tags have 16 bytes.
-/
set_option linter.unusedSimpArgs false
set_option linter.unusedSectionVars false
set_option autoImplicit false
namespace Abe
namespace Evp
open Live (Mut lift)

/-! ### Streams -/

/-- C122: for all histories of calls on a new stream object, on any heap, the version with pointers returns and writes what
the one without memory does, so there are no errors of memory besides those of Model/Sym (keys that are too short, empty IVs).
At all times the object has at most one cipher context on the heap, the one it points to, and the destructor leaves the heap
as it was. -/
theorem C122_stream (g : Gcm) (key : Bytes) (xs : List Stream.Call) (h : Heap) :
    match Values.stream g { key := key } xs with
    | .ok (outs, v) => ∃ s h', PStream.run g h { key := key } xs = .ok (outs, s, h') ∧
        (live h').length = (live h).length + inStream v ∧ ∃ h'', s.destroy h' = .ok h'' ∧ live h'' = live h
    | .throw e => PStream.run g h { key := key } xs = .throw e
    | .ub => PStream.run g h { key := key } xs = .ub
    | .abort => PStream.run g h { key := key } xs = .abort := by
  have H : At h none { key := key } := at_none rfl
  have hs := sim_run g xs H
  cases hr : Values.stream g { key := key } xs with
  | throw e => rw [hr] at hs; exact hs
  | ub => rw [hr] at hs; exact hs
  | abort => rw [hr] at hs; exact hs
  | ok t =>
    rw [hr] at hs
    obtain ⟨p', h', e1, e2, e3⟩ := hs
    obtain ⟨c1, c2⟩ := at_cells e2
    obtain ⟨h'', d1, d2⟩ := sim_destroy e2
    refine ⟨_, h', e1, ?_, h'', d1, live_ext fun i => (e3.trans d2).keep i (by simp) (by simp)⟩
    rw [← c1]
    exact live_more p'.toList h h' (by cases p' <;> simp) (fun i hi => e3.keep i (by simp) hi)
      (fun i hi => e3.fresh i hi (by simp)) c2

theorem stream_run (g : Gcm) : ∀ (xs : List Stream.Call) (s s' : Stream), Stream.run g s xs = .ok s' →
    ∃ outs, Values.stream g s xs = .ok (outs, s')
  | [], s, s', h => by cases h; exact ⟨[], rfl⟩
  | x :: xs, s, s', h => by
    rw [Stream.run] at h
    obtain ⟨t, h1, h2⟩ := (Res.bind_eq_ok _ _ _).mp h
    obtain ⟨outs, h3⟩ := stream_run g xs t.st s' h2
    exact ⟨(t.sig, t.out) :: outs, by rw [Values.stream, h1, Res.ok_bind, h3]; rfl⟩

/-- C122: there is one context exactly from the start of an encryption or decryption to its end (`Stream.Phase` of C54), in
whatever order the calls come. Partial: keys of 32 bytes, IVs that are not empty. -/
theorem C122_phase_partial (g : Gcm) (key : Bytes) (hk : 32 ≤ key.length) (xs : List Stream.Call)
    (hx : ∀ x ∈ xs, Stream.IvOk x) (h : Heap) :
    ∃ outs s h', PStream.run g h { key := key } xs = .ok (outs, s, h') ∧
      (live h').length = (live h).length + (if xs.foldl Stream.Phase.next .idle = .idle then 0 else 1) := by
  obtain ⟨v, h1, h2⟩ := Stream.rel_run (g := g) hk xs .idle _ (Stream.rel_new key) hx
  obtain ⟨outs, h3⟩ := stream_run g xs _ v h1
  have hs := C122_stream g key xs h
  rw [h3] at hs
  obtain ⟨s, h', e1, e2, -⟩ := hs
  refine ⟨outs, s, h', e1, ?_⟩
  rw [e2, inStream]
  generalize xs.foldl Stream.Phase.next .idle = p at h2
  cases p with
  | idle => rw [h2.2.2.2]; rfl
  | enc n k => obtain ⟨-, -, -, -, -, c, hc, -⟩ := h2; rw [hc]; rfl
  | dec k => obtain ⟨-, -, -, -, c, hc, -⟩ := h2; rw [hc]; rfl
  | stuck => obtain ⟨-, -, -, -, -, -, c, hc, -⟩ := h2; rw [hc]; rfl

example : [Stream.Call.encInit Sym.Ex.iv16, .decInit Sym.Ex.iv16 [], .encUpdate [1], .encFinalize 1].foldl
    Stream.Phase.next .idle = .idle ∧
    [Stream.Call.encInit Sym.Ex.iv16, .encUpdate [1], .encFinalize 2].foldl Stream.Phase.next .idle ≠ .idle := by
  decide +kernel

/-- C122 violated for copies: a stream object can be copied (nothing forbids it, include/abe/zsymkey.h:122-146), and if it has
a context, the destructors of the two release it twice. -/
theorem C122_copy_violated (h h' : Heap) (s : PStream) (hc : s.ctx ≠ none) (hd : s.destroy h = .ok h') :
    s.destroy h' = .ub := by
  obtain ⟨a, ha⟩ := Option.ne_none_iff_exists'.mp hc
  rw [PStream.destroy, ha] at hd ⊢
  dsimp only at hd ⊢
  rw [free] at hd
  cases hg : get h a with
  | none => rw [hg] at hd; cases hd
  | some x =>
    rw [hg] at hd
    cases hd
    rw [free, get_set hg, if_pos rfl]

example : ∃ s h, PStream.run ⟨fun _ _ _ => 0, fun _ _ _ _ => List.replicate 16 0, fun _ _ _ _ => rfl⟩ []
    { key := Sym.Ex.key32 } [.encInit Sym.Ex.iv16] = .ok ([(.ret none, Sym.Ex.iv16)], s, h) ∧ s.ctx ≠ none ∧
    s.destroy h = .ok [none] := ⟨_, _, rfl, by decide +kernel, rfl⟩

/-! ### The stream context -/

/-- C122: for all histories of calls on a new stream context, on any heap, the version with pointers returns and writes what
the one without memory does: no stream object and no cipher context is used after its release or released twice. On the
heap there are at all times just the two stream objects it points to and their contexts, whatever was started, abandoned,
restarted or failed in between, and the destructor leaves the heap as it was. -/
theorem C122_context (g : Gcm) (xs : List StreamCtx.Call) (h : Heap) :
    match Values.context g {} xs with
    | .ok (outs, v) => ∃ c h', PCtx.run g h {} xs = .ok (outs, c, h') ∧
        (live h').length = (live h).length + inContext v ∧ ∃ h'', c.destroy h' = .ok h'' ∧ live h'' = live h
    | .throw e => PCtx.run g h {} xs = .throw e
    | .ub => PCtx.run g h {} xs = .ub
    | .abort => PCtx.run g h {} xs = .abort := by
  have H : Joint h {} {} [] [] := ⟨rfl, rfl, rfl, by simp⟩
  have hs := simC_run g xs H
  cases hr : Values.context g {} xs with
  | throw e => rw [hr] at hs; exact hs
  | ub => rw [hr] at hs; exact hs
  | abort => rw [hr] at hs; exact hs
  | ok t =>
    rw [hr] at hs
    obtain ⟨c', h', o1, o2, e1, e2, e3⟩ := hs
    obtain ⟨c1, c2, c3⟩ := joint_cells e2
    obtain ⟨h'', d1, d2⟩ := joint_destroy e2
    refine ⟨c', h', e1, ?_, h'', d1, live_ext fun i => (e3.trans d2).keep i (by simp) (by simp)⟩
    rw [← c3]
    exact live_more (o1 ++ o2) h h' c1 (fun i hi => e3.keep i (by simp) hi) (fun i hi => e3.fresh i hi (by simp)) c2

theorem context_run (g : Gcm) : ∀ (xs : List StreamCtx.Call) (c c' : StreamCtx), StreamCtx.run g c xs = .ok c' →
    ∃ outs, Values.context g c xs = .ok (outs, c')
  | [], c, c', h => by cases h; exact ⟨[], rfl⟩
  | x :: xs, c, c', h => by
    rw [StreamCtx.run] at h
    obtain ⟨c1, h1, h2⟩ := (Res.bind_eq_ok _ _ _).mp h
    obtain ⟨outs, h3⟩ := context_run g xs c1 c' h2
    have : ∃ o, Values.call g c x = .ok (o, c1) := by
      cases x with
      | exportKey id => cases h1; exact ⟨_, rfl⟩
      | delete id => cases h1; exact ⟨_, rfl⟩
      | load id blob rnd =>
        rw [StreamCtx.call] at h1
        rw [Values.call]
        cases hl : c.loadPrivateKey id blob rnd with
        | throw e => rw [hl] at h1; cases h1; exact ⟨_, rfl⟩
        | ub => rw [hl] at h1; cases h1
        | abort => rw [hl] at h1; cases h1
        | ok r => rw [hl] at h1; cases h1; exact ⟨_, rfl⟩
      | _ =>
        rw [StreamCtx.call] at h1
        obtain ⟨r, h4, h5⟩ := (Res.bind_eq_ok _ _ _).mp h1
        cases h5
        exact ⟨_, by rw [Values.call, h4]; rfl⟩
    obtain ⟨o, h4⟩ := this
    exact ⟨o :: outs, by rw [Values.context, h4, Res.ok_bind, h3]; rfl⟩

/-- C122: with careful arguments (those of C81) every history on a context is free of errors of memory, never holds more than
four cells, and leaves nothing behind. Partial: key blobs that load contain 32 bytes of key, IVs are not empty. -/
theorem C122_context_partial (g : Gcm) (xs : List StreamCtx.Call) (hx : ∀ x ∈ xs, StreamCtx.Careful x) (h : Heap) :
    ∃ outs c h', PCtx.run g h {} xs = .ok (outs, c, h') ∧ (live h').length ≤ (live h).length + 4 ∧
      ∃ h'', c.destroy h' = .ok h'' ∧ live h'' = live h := by
  obtain ⟨v, h1⟩ := StreamCtx.C81_histories_defined_partial g xs hx
  obtain ⟨outs, h2⟩ := context_run g xs {} v h1
  have hs := C122_context g xs h
  rw [h2] at hs
  obtain ⟨c, h', e1, e2, e3⟩ := hs
  refine ⟨outs, c, h', e1, ?_, e3⟩
  have hp : ∀ o : Option Stream, inPtr o ≤ 2 := by
    intro o
    cases o with
    | none => simp [inPtr]
    | some s => simp only [inPtr, inStream]; split <;> omega
  have := hp v.enc
  have := hp v.dec
  rw [e2, inContext]; omega

example : ∀ x ∈ [StreamCtx.Call.keygen b!"a" Sym.Ex.key32, .encInit b!"a" Sym.Ex.iv16, .encInit b!"a" Sym.Ex.iv16,
    .encInit b!"b" Sym.Ex.iv16, .decFinalize], StreamCtx.Careful x := by
  intro x hx
  simp only [List.mem_cons, List.not_mem_nil, or_false] at hx
  rcases hx with rfl | rfl | rfl | rfl | rfl
  · rfl
  · show Sym.Ex.iv16 ≠ []; decide
  · show Sym.Ex.iv16 ≠ []; decide
  · show Sym.Ex.iv16 ≠ []; decide
  · trivial

/-- C122 violated for copies of a context (include/abe/zcontextske.h:46-73 leaves copying to the compiler): the stream objects
are deleted twice. -/
theorem C122_copied_context_violated (h h' : Heap) (c : PCtx) (hc : c.enc ≠ none ∨ c.dec ≠ none)
    (hd : c.destroy h = .ok h') : c.destroy h' = .ub := by
  have gone : ∀ {h h' : Heap} {a i : Nat}, free h a = .ok h' → get h i = none ∨ i = a → get h' i = none := by
    intro h h' a i hf hi
    rw [free] at hf
    cases hg : get h a with
    | none => rw [hg] at hf; cases hf
    | some x =>
      rw [hg] at hf; cases hf
      rw [get_set hg]
      split
      · rfl
      · next hn => exact hi.resolve_right hn
  have keep : ∀ {h h' : Heap} {q : Option Nat} {i : Nat}, delStream h q = .ok h' → get h i = none ∨ q = some i →
      get h' i = none := by
    intro h h' q i hd hi
    cases q with
    | none => cases hd; exact hi.resolve_right (by simp)
    | some a =>
      rw [delStream] at hd
      obtain ⟨s, -, hd⟩ := (Res.bind_eq_ok _ _ _).mp hd
      obtain ⟨h1, hd1, hd⟩ := (Res.bind_eq_ok _ _ _).mp hd
      refine gone hd ?_
      rcases hi with hi | hi
      · left
        rw [PStream.destroy] at hd1
        cases hs : s.ctx with
        | none => rw [hs] at hd1; cases hd1; exact hi
        | some b => rw [hs] at hd1; exact gone hd1 (.inl hi)
      · right; cases hi; rfl
  have dead : ∀ {h : Heap} {a : Nat}, get h a = none → delStream h (some a) = .ub := by
    intro h a hg
    rw [delStream, loadStream, hg]; rfl
  rw [PCtx.destroy] at hd
  obtain ⟨h1, hd1, hd2⟩ := (Res.bind_eq_ok _ _ _).mp hd
  rw [PCtx.destroy]
  cases he : c.enc with
  | some a =>
    rw [he] at hd1
    rw [dead (keep hd2 (.inl (keep hd1 (.inr rfl))))]; rfl
  | none =>
    show delStream h' c.dec = .ub
    obtain ⟨a, ha⟩ := Option.ne_none_iff_exists'.mp (hc.resolve_left (by simp [he]))
    rw [ha] at hd2 ⊢
    exact dead (keep hd2 (.inr rfl))

/-! ### Whole messages -/

/-- C122: all uses of a key handle, one after the other, on any heap: the results are those without memory, and what is left on
the heap is one cipher context for each message to decrypt with a tag that has not 16 bytes, nothing else. -/
theorem C122_messages (g : Gcm) (k : SymHandle) (us : List Use) (h : Heap) (hu : ∀ u ∈ us, Values.use g k u ≠ .ub) :
    (handleUses g k us h).1 = us.map (Values.use g k) ∧
      live (handleUses g k us h).2 = live h ++ List.replicate (us.countP (badTag k)) (.ctx none) :=
  handle_uses g k us h hu

namespace CEx
/-- IV, a ciphertext and a tag of one byte each. -/
def short : Bytes := BS.smartPack (BS.smartPack (BS.smartPack [] Sym.Ex.iv16) [1]) [7]
end CEx

theorem short_fields (key auth : Bytes) :
    handleFields { key := key, auth := auth } CEx.short = .ok (Sym.Ex.iv16, [1], [7]) := by
  have h : handleFields { key := [], auth := [] } CEx.short = .ok (Sym.Ex.iv16, [1], [7]) := by decide +kernel
  exact h

/-- C122 violated: `decrypt` allocates the context (zsymkey.cpp:332) before it checks the length of the tag (344), and the
error leaves it. So with any key, a message that anybody can write leaves one context each time it is received. -/
theorem C122_tag_violated (g : Gcm) (key auth : Bytes) (n : Nat) (h : Heap) :
    live (handleUses g { key := key, auth := auth } (List.replicate n (.dec CEx.short)) h).2 =
      live h ++ List.replicate n (.ctx none) := by
  have hb : badTag { key := key, auth := auth } (.dec CEx.short) = true := by
    rw [badTag, short_fields]; rfl
  have hv : Values.use g { key := key, auth := auth } (.dec CEx.short) = .throw .runtimeError := by
    rw [Values.use, decrypt_fields, short_fields]; rfl
  have := (C122_messages g { key := key, auth := auth } (List.replicate n (.dec CEx.short)) h fun u hu => by
    rw [List.eq_of_mem_replicate hu, hv]; simp).2
  rw [this, List.countP_replicate, if_pos hb]

example : ∀ u ∈ [Use.dec CEx.short, .dec [], .enc Sym.Ex.iv16 [1, 2]],
    Values.use ⟨fun _ _ _ => 0, fun _ _ _ _ => List.replicate 16 0, fun _ _ _ _ => rfl⟩ { key := Sym.Ex.key32 } u ≠ .ub := by
  intro u hu
  simp only [List.mem_cons, List.not_mem_nil, or_false] at hu
  rcases hu with rfl | rfl | rfl <;> decide +kernel

end Evp
end Abe
