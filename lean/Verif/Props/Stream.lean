import Verif.Props.Sym
import Verif.Props.Keystore
/-!
# Streams: C53–C55, C57, C81–C83

`g : Gcm` stands for AES-256-GCM; nothing is assumed about it but that tags have 16 bytes.
-/
set_option linter.unusedSimpArgs false
set_option linter.unusedSectionVars false
set_option autoImplicit false
namespace Abe
namespace Stream

/-! ### The order of calls -/

/-- What a stream object is doing, as seen by its user: nothing, encrypting (`n` bytes in `k` updates so far),
decrypting (`k` updates so far), or stuck after a message too long for it. -/
inductive Phase
  | idle
  | enc (n k : Nat)
  | dec (k : Nat)
  | stuck
  deriving DecidableEq

/-- The phase after a call. -/
def Phase.next : Phase → Call → Phase
  | .idle, .encInit _ => .enc 0 0
  | .idle, .decInit _ _ => .dec 0
  | .enc n k, .encUpdate pt => if pt = [] then .enc n k else .enc (n + pt.length) (k + 1)
  | .enc n (k + 1), .encFinalize m => if m ≠ n then .enc n (k + 1) else if n < 2 ^ 32 then .idle else .stuck
  | .dec k, .decUpdate ct => if ct = [] then .dec k else .dec (k + 1)
  | .dec (_ + 1), .decFinalize => .idle
  | p, _ => p

/-- Calls that make no sense in a phase: starting twice, continuing or finishing what was not started, finishing
without data. -/
def Misplaced : Phase → Call → Prop
  | .idle, .encUpdate _ | .idle, .encFinalize _ | .idle, .decUpdate _ | .idle, .decFinalize => True
  | .enc _ _, .encInit _ | .enc _ _, .decInit _ _ | .enc _ _, .decUpdate _ | .enc _ _, .decFinalize => True
  | .enc _ 0, .encFinalize _ => True
  | .dec _, .encInit _ | .dec _, .decInit _ _ | .dec _, .encUpdate _ | .dec _, .encFinalize _ => True
  | .dec 0, .decFinalize => True
  | _, _ => False

/-- Misplaced calls that are not reported. -/
def Silent : Phase → Call → Prop
  | _, .encUpdate _ | _, .encFinalize _ | _, .decUpdate _ | .dec _, .decInit _ _ => True
  | _, _ => False

/-- IVs are not empty. -/
def IvOk : Call → Prop
  | .encInit iv => iv ≠ []
  | .decInit iv _ => iv ≠ []
  | _ => True

/-- The state of the object goes with the phase. -/
def Rel (key : Bytes) (p : Phase) (s : Stream) : Prop :=
  s.key = key ∧
  match p with
  | .idle => s.encSet = false ∧ s.decSet = false ∧ s.ctx = none
  | .enc n k => s.encSet = true ∧ s.decSet = false ∧ s.total = n ∧ s.encCount = k ∧
      ∃ c, s.ctx = some c ∧ c.done = false
  | .dec k => s.encSet = false ∧ s.decSet = true ∧ s.decCount = k ∧ ∃ c, s.ctx = some c ∧ c.done = false
  | .stuck => s.encSet = true ∧ s.decSet = false ∧ s.total / 2 ^ 32 * 2 ^ 32 = s.total ∧ s.total ≠ 0 ∧
      0 < s.encCount ∧ ∃ c, s.ctx = some c ∧ c.done = true

theorem updAad_done (c : GcmCtx) (a : Bytes) : (c.updAad a).2.done = c.done := by
  rw [GcmCtx.updAad]; split <;> rfl

theorem updEnc_live (g : Gcm) (c : GcmCtx) (pt : Bytes) (h : c.done = false) :
    c.updEnc g pt = (g.crypt c.key c.iv c.ct.length pt, { c with ct := c.ct ++ g.crypt c.key c.iv c.ct.length pt }) :=
  if_neg (by simp [h])

theorem updEnc_done (g : Gcm) (c : GcmCtx) (pt : Bytes) (h : c.done = true) : c.updEnc g pt = ([], c) := if_pos h

theorem updDec_live (g : Gcm) (c : GcmCtx) (ct : Bytes) (h : c.done = false) :
    c.updDec g ct = (g.crypt c.key c.iv c.ct.length ct, { c with ct := c.ct ++ ct }) :=
  if_neg (by simp [h])

theorem rel_initAad {key : Bytes} {p : Phase} {s : Stream} (h : Rel key p s) (a : Option Bytes) :
    Rel key p (s.initAad a) := by
  unfold Stream.initAad
  split
  · cases a <;> (obtain ⟨h1, h2⟩ := h; cases p <;> exact ⟨h1, h2⟩)
  · exact h

theorem rel_setAad {key : Bytes} {p : Phase} {s : Stream} (h : Rel key p s) :
    ∃ t, s.setAad = .ok t ∧ Rel key p t.st := by
  rw [Stream.setAad]
  split
  · next hc =>
    cases p with
    | idle => obtain ⟨-, h1, h2, -⟩ := h; simp [h1, h2] at hc
    | enc n k =>
      obtain ⟨h0, h1, h2, h3, h4, c, h5, h6⟩ := h
      rw [h5]
      dsimp only
      split
      · exact ⟨_, rfl, h0, h1, h2, h3, h4, _, rfl, by rw [updAad_done]; exact h6⟩
      · exact ⟨_, rfl, h0, h1, h2, h3, h4, _, rfl, by rw [updAad_done]; exact h6⟩
    | dec k =>
      obtain ⟨h0, h1, h2, h3, c, h5, h6⟩ := h
      rw [h5]
      dsimp only
      split
      · exact ⟨_, rfl, h0, h1, h2, h3, _, rfl, by rw [updAad_done]; exact h6⟩
      · exact ⟨_, rfl, h0, h1, h2, h3, _, rfl, by rw [updAad_done]; exact h6⟩
    | stuck =>
      obtain ⟨h0, h1, h2, h3, h4, h4', c, h5, h6⟩ := h
      rw [h5]
      dsimp only
      split
      · exact ⟨_, rfl, h0, h1, h2, h3, h4, h4', _, rfl, by rw [updAad_done]; exact h6⟩
      · exact ⟨_, rfl, h0, h1, h2, h3, h4, h4', _, rfl, by rw [updAad_done]; exact h6⟩
  · exact ⟨_, rfl, h⟩

theorem rel_call {g : Gcm} {key : Bytes} (hk : 32 ≤ key.length) {p : Phase} {s : Stream} (h : Rel key p s)
    (c : Call) (hc : IvOk c) : ∃ t, call g s c = .ok t ∧ Rel key (p.next c) t.st := by
  cases c with
  | initAad a => exact ⟨_, rfl, by cases p <;> exact rel_initAad h a⟩
  | setAad =>
    obtain ⟨t, h1, h2⟩ := rel_setAad h
    exact ⟨t, h1, by cases p <;> exact h2⟩
  | encInit iv =>
    simp only [call]
    rw [Stream.encInit]
    cases p with
    | idle =>
      obtain ⟨h0, h1, h2, h3⟩ := h
      rw [if_neg (by simp [h1]), if_neg (by simp [h2]), h0, GcmCtx.init_ok _ _ hk hc]
      exact ⟨_, rfl, rfl, rfl, h2, rfl, rfl, _, rfl, rfl⟩
    | enc n k => rw [if_pos h.2.1]; exact ⟨_, rfl, h⟩
    | dec k => rw [if_neg (by simp [h.2.1]), if_pos h.2.2.1]; exact ⟨_, rfl, h⟩
    | stuck => rw [if_pos h.2.1]; exact ⟨_, rfl, h⟩
  | encUpdate pt =>
    simp only [call]
    rw [Stream.encUpdate]
    cases p with
    | idle => rw [if_neg (by simp [h.2.1])]; exact ⟨_, rfl, h⟩
    | dec k => rw [if_neg (by simp [h.2.1])]; exact ⟨_, rfl, h⟩
    | enc n k =>
      rw [if_pos h.2.1]
      by_cases hp : pt = []
      · subst hp; rw [if_pos (show ([] : Bytes).length = 0 from rfl)]; exact ⟨_, rfl, h⟩
      · rw [if_neg (fun h => hp (List.length_eq_zero_iff.mp h))]
        obtain ⟨h0, h1, h2, h3, h4, c, h5, h6⟩ := h
        rw [h5]
        dsimp only
        rw [updEnc_live g c pt h6]
        dsimp only
        rw [g.crypt_length, if_pos rfl]
        refine ⟨_, rfl, ?_⟩
        rw [Phase.next, if_neg hp]
        exact ⟨h0, h1, h2, by rw [h3], by rw [h4], _, rfl, h6⟩
    | stuck =>
      rw [if_pos h.2.1]
      by_cases hp : pt = []
      · subst hp; rw [if_pos (show ([] : Bytes).length = 0 from rfl)]; exact ⟨_, rfl, h⟩
      · rw [if_neg (fun h => hp (List.length_eq_zero_iff.mp h))]
        obtain ⟨h0, h1, h2, h3, h4, h4', c, h5, h6⟩ := h
        rw [h5]
        dsimp only
        rw [updEnc_done g c pt h6]
        dsimp only
        rw [if_neg (show ¬ pt.length = ([] : Bytes).length from fun h => hp (List.length_eq_zero_iff.mp h))]
        exact ⟨_, rfl, h0, h1, h2, h3, h4, h4', c, rfl, h6⟩
  | encFinalize m =>
    simp only [call]
    rw [Stream.encFinalize]
    cases p with
    | idle => rw [if_neg (by simp [h.2.1])]; exact ⟨_, rfl, h⟩
    | dec k => rw [if_neg (by simp [h.2.1])]; exact ⟨_, rfl, h⟩
    | enc n k =>
      obtain ⟨h0, h1, h2, h3, h4, c, h5, h6⟩ := h
      cases k with
      | zero =>
        rw [if_neg (by simp [h1, h4])]
        exact ⟨_, rfl, h0, h1, h2, h3, h4, c, h5, h6⟩
      | succ k =>
        rw [if_pos (by simp [h1, h4]), h3]
        simp only [Phase.next]
        by_cases hm : m = n
        · subst hm
          simp only [ne_eq, not_true_eq_false, if_false, h5]
          by_cases hn : m < 2 ^ 32
          · have : m / 2 ^ 32 * 2 ^ 32 = 0 := by rw [Nat.div_eq_of_lt hn]
            rw [if_pos hn, if_neg (by simp [this])]
            exact ⟨_, rfl, h0, rfl, h2, rfl⟩
          · rw [if_neg hn, if_pos (by omega)]
            exact ⟨_, rfl, h0, h1, h2, by dsimp only; omega, by dsimp only; omega, by dsimp only; omega, _, rfl, rfl⟩
        · rw [if_pos hm, if_pos hm]
          exact ⟨_, rfl, h0, h1, h2, h3, h4, c, h5, h6⟩
    | stuck =>
      obtain ⟨h0, h1, h2, h3, h4, h4', c, h5, h6⟩ := h
      rw [if_pos (by simp [h1, h4'])]
      by_cases hm : m = s.total
      · rw [if_neg (by simp [hm]), h5]
        dsimp only
        rw [h3, if_pos h4]
        exact ⟨_, rfl, h0, h1, h2, h3, h4, h4', _, rfl, rfl⟩
      · rw [if_pos hm]
        exact ⟨_, rfl, h0, h1, h2, h3, h4, h4', c, h5, h6⟩
  | decInit iv tag =>
    simp only [call]
    rw [Stream.decInit]
    cases p with
    | idle =>
      obtain ⟨h0, h1, h2, h3⟩ := h
      rw [if_neg (by simp [h2]), if_neg (by simp [h1]), h0, GcmCtx.init_ok _ _ hk hc]
      refine ⟨_, rfl, rfl, h1, rfl, rfl, _, rfl, ?_⟩
      rw [GcmCtx.setTag]; split <;> rfl
    | enc n k => rw [if_neg (by simp [h.2.2.1]), if_pos h.2.1]; exact ⟨_, rfl, h⟩
    | stuck => rw [if_neg (by simp [h.2.2.1]), if_pos h.2.1]; exact ⟨_, rfl, h⟩
    | dec k => rw [if_pos h.2.2.1]; exact ⟨_, rfl, h⟩
  | decUpdate ct =>
    simp only [call]
    rw [Stream.decUpdate]
    cases p with
    | idle => rw [if_neg (by simp [h.2.2.1])]; exact ⟨_, rfl, h⟩
    | enc n k => rw [if_neg (by simp [h.2.2.1])]; exact ⟨_, rfl, h⟩
    | stuck => rw [if_neg (by simp [h.2.2.1])]; exact ⟨_, rfl, h⟩
    | dec k =>
      rw [if_pos h.2.2.1]
      by_cases hp : ct = []
      · subst hp; rw [if_pos (show ([] : Bytes).length = 0 from rfl)]; exact ⟨_, rfl, h⟩
      · rw [if_neg (fun h => hp (List.length_eq_zero_iff.mp h))]
        obtain ⟨h0, h1, h2, h3, c, h5, h6⟩ := h
        rw [h5]
        dsimp only
        rw [updDec_live g c ct h6]
        dsimp only
        rw [g.crypt_length, if_pos rfl]
        refine ⟨_, rfl, ?_⟩
        rw [Phase.next, if_neg hp]
        exact ⟨h0, h1, h2, by rw [h3], _, rfl, h6⟩
  | decFinalize =>
    simp only [call]
    rw [Stream.decFinalize]
    cases p with
    | idle => rw [if_neg (by simp [h.2.2.1])]; exact ⟨_, rfl, h⟩
    | enc n k => rw [if_neg (by simp [h.2.2.1])]; exact ⟨_, rfl, h⟩
    | stuck => rw [if_neg (by simp [h.2.2.1])]; exact ⟨_, rfl, h⟩
    | dec k =>
      obtain ⟨h0, h1, h2, h3, c, h5, h6⟩ := h
      cases k with
      | zero =>
        rw [if_neg (by simp [h2, h3])]
        exact ⟨_, rfl, h0, h1, h2, h3, c, h5, h6⟩
      | succ k =>
        rw [if_pos (by simp [h2, h3]), h5]
        dsimp only
        split
        · exact ⟨_, rfl, h0, h1, rfl, rfl⟩
        · exact ⟨_, rfl, h0, h1, rfl, rfl⟩

/-- A history of calls on a new object, whatever they return. -/
def run (g : Gcm) : Stream → List Call → Res Stream
  | s, [] => .ok s
  | s, c :: cs => do
    let t ← call g s c
    run g t.st cs

theorem rel_run {g : Gcm} {key : Bytes} (hk : 32 ≤ key.length) :
    ∀ (cs : List Call) (p : Phase) (s : Stream), Rel key p s → (∀ c ∈ cs, IvOk c) →
      ∃ s', run g s cs = .ok s' ∧ Rel key (cs.foldl Phase.next p) s'
  | [], p, s, h, _ => ⟨s, rfl, h⟩
  | c :: cs, p, s, h, hc => by
    obtain ⟨t, h1, h2⟩ := rel_call (g := g) hk h c (hc c (by simp))
    obtain ⟨s', h3, h4⟩ := rel_run hk cs _ t.st h2 (fun c' h' => hc c' (by simp [h']))
    exact ⟨s', by rw [run, h1]; exact h3, h4⟩

theorem rel_new (key : Bytes) : Rel key .idle { key := key } := ⟨rfl, rfl, rfl, rfl⟩

/-- C54, what holds: whatever calls are made on a stream object, in whatever order, none is undefined (no released
or missing cipher context is used). Partial: the key has 32 bytes (C80) and IVs are not empty (C85). -/
theorem C54_any_order_defined_partial (g : Gcm) (key : Bytes) (hk : 32 ≤ key.length) (cs : List Call)
    (hc : ∀ c ∈ cs, IvOk c) : ∃ s, run g { key := key } cs = .ok s := by
  obtain ⟨s, h, -⟩ := rel_run (g := g) hk cs .idle _ (rel_new key) hc
  exact ⟨s, h⟩

example : ∀ c ∈ [Call.decUpdate [1], .encFinalize 3, .encInit Sym.Ex.iv16, .decInit Sym.Ex.iv16 []], IvOk c := by
  simp [IvOk, Sym.Ex.iv16]

/-- C54: after any history a misplaced call leaves the object as it is and produces no output. It returns
`OpenABE_NOERROR` all the same if it is an update, the end of an encryption, or a second start of a decryption
(`C54_silent_violated`); the other misplaced calls return an error. -/
theorem C54_misplaced_partial (g : Gcm) (key : Bytes) (hk : 32 ≤ key.length) (cs : List Call)
    (hcs : ∀ c ∈ cs, IvOk c) (s : Stream) (hs : run g { key := key } cs = .ok s) (c : Call)
    (hm : Misplaced (cs.foldl Phase.next .idle) c) :
    ∃ e, call g s c = .ok ⟨.ret e, [], s⟩ ∧
      (e = none ↔ Silent (cs.foldl Phase.next .idle) c) := by
  obtain ⟨s', h1, h2⟩ := rel_run (g := g) hk cs .idle _ (rel_new key) hcs
  rw [hs] at h1
  cases h1
  generalize cs.foldl Phase.next .idle = p at *
  clear hs hcs
  cases p with
  | idle =>
    obtain ⟨h0, h1, h2, h3⟩ := h2
    cases c <;> first
      | exact hm.elim
      | (simp only [call, encUpdate, encFinalize, decUpdate, decFinalize, h1, h2]; exact ⟨_, rfl, by simp [Silent]⟩)
  | enc n k =>
    obtain ⟨h0, h1, h2, h3, h4, -⟩ := h2
    cases c <;> first
      | exact hm.elim
      | (simp only [call, encInit, decInit, decUpdate, decFinalize, h1, h2]; exact ⟨_, rfl, by simp [Silent]⟩)
      | (cases k with
         | zero => simp only [call, encFinalize, h1, h4]; exact ⟨_, rfl, by simp [Silent]⟩
         | succ k => exact hm.elim)
  | dec k =>
    obtain ⟨h0, h1, h2, h3, -⟩ := h2
    cases c <;> first
      | exact hm.elim
      | (simp only [call, encInit, decInit, encUpdate, encFinalize, h1, h2]; exact ⟨_, rfl, by simp [Silent]⟩)
      | (cases k with
         | zero => simp only [call, decFinalize, h2, h3]; exact ⟨_, rfl, by simp [Silent]⟩
         | succ k => exact hm.elim)
  | stuck => cases c <;> exact hm.elim

/-- C54 is violated: updating or finishing before starting returns `OpenABE_NOERROR`, and so does starting a second
decryption, whose IV and tag are ignored. -/
theorem C54_silent_violated (g : Gcm) (key : Bytes) (pt : Bytes) (n : Nat) :
    call g { key := key } (.encUpdate pt) = .ok ⟨.ret none, [], { key := key }⟩ ∧
    call g { key := key } (.encFinalize n) = .ok ⟨.ret none, [], { key := key }⟩ ∧
    call g { key := key } (.decUpdate pt) = .ok ⟨.ret none, [], { key := key }⟩ ∧
    ∀ s iv tag, s.decSet = true → call g s (.decInit iv tag) = .ok ⟨.ret none, [], s⟩ := by
  refine ⟨rfl, rfl, rfl, ?_⟩
  intro s iv tag h
  simp only [call]
  rw [decInit, if_pos h]

example : Misplaced ([Call.encInit Sym.Ex.iv16, .encUpdate [1]].foldl Phase.next .idle) (.decInit Sym.Ex.iv16 []) :=
  trivial

/-! ### C53: chunks -/

theorem updAad_live (c : GcmCtx) (a : Bytes) (hd : c.done = false) (hc : c.ct = []) :
    c.updAad a = (a.length, { c with aad := c.aad ++ a }) := by
  rw [GcmCtx.updAad, if_neg (by simp [hd, hc])]

/-- A call that must succeed: its output and the object; otherwise the error. -/
def check : Res (Step Stream) → Res (Bytes × Stream)
  | .ok ⟨.ret none, out, s⟩ => .ok (out, s)
  | .ok ⟨.ret (some e), _, _⟩ => .throw e
  | .ok ⟨.exc e, _, _⟩ => .throw e
  | .throw e => .throw e
  | .ub => .ub
  | .abort => .abort

/-- One call per chunk: all outputs together. -/
def feed (f : Stream → Bytes → Res (Step Stream)) : Stream → List Bytes → Res (Bytes × Stream)
  | s, [] => .ok ([], s)
  | s, b :: bs => do
    let (o, s) ← check (f s b)
    let (o', s) ← feed f s bs
    .ok (o ++ o', s)

/-- A whole encryption: start, authentication data, chunks, end. Gives ciphertext, tag and the object. -/
def encAll (g : Gcm) (s : Stream) (iv : Bytes) (aad : Option Bytes) (chunks : List Bytes) :
    Res (Bytes × Bytes × Stream) := do
  let (_, s) ← check (s.encInit iv)
  let (_, s) ← check (s.initAad aad).setAad
  let (ct, s) ← feed (encUpdate g) s chunks
  let (tag, s) ← check (s.encFinalize g ct.length)
  .ok (ct, tag, s)

/-- A whole decryption: start, authentication data, chunks, end. Gives the plaintext and the object. -/
def decAll (g : Gcm) (s : Stream) (iv tag : Bytes) (aad : Option Bytes) (chunks : List Bytes) :
    Res (Bytes × Stream) := do
  let (_, s) ← check (s.decInit iv tag)
  let (_, s) ← check (s.initAad aad).setAad
  let (pt, s) ← feed (decUpdate g) s chunks
  let (_, s) ← check (s.decFinalize g)
  .ok (pt, s)

theorem feed_enc (g : Gcm) : ∀ (chunks : List Bytes) (s : Stream) (c : GcmCtx), (∀ b ∈ chunks, b ≠ []) →
    s.encSet = true → s.ctx = some c → c.done = false →
    feed (encUpdate g) s chunks =
      .ok (g.crypt c.key c.iv c.ct.length chunks.flatten,
        { s with ctx := some { c with ct := c.ct ++ g.crypt c.key c.iv c.ct.length chunks.flatten },
                 total := s.total + chunks.flatten.length, encCount := s.encCount + chunks.length })
  | [], s, c, _, h1, h2, h3 => by
    obtain ⟨⟩ := s
    dsimp only at h2
    subst h2
    simp [feed, Gcm.crypt]
  | b :: bs, s, c, hb, h1, h2, h3 => by
    have hb0 : b ≠ [] := hb b (by simp)
    rw [feed, encUpdate, if_pos h1, if_neg (fun h => hb0 (List.length_eq_zero_iff.mp h)), h2]
    dsimp only
    rw [updEnc_live g c b h3]
    dsimp only
    rw [g.crypt_length, if_pos rfl]
    show (feed (encUpdate g) _ bs >>= _) = _
    rw [feed_enc g bs _ _ (fun b' h' => hb b' (by simp [h'])) (by exact h1) rfl (by exact h3), Res.ok_bind]
    dsimp only
    rw [List.flatten_cons, g.crypt_append, List.length_append, List.length_append, g.crypt_length, List.append_assoc,
      List.length_cons, Nat.add_assoc, Nat.add_assoc, Nat.add_comm 1]

theorem feed_dec (g : Gcm) : ∀ (chunks : List Bytes) (s : Stream) (c : GcmCtx), (∀ b ∈ chunks, b ≠ []) →
    s.decSet = true → s.ctx = some c → c.done = false →
    feed (decUpdate g) s chunks =
      .ok (g.crypt c.key c.iv c.ct.length chunks.flatten,
        { s with ctx := some { c with ct := c.ct ++ chunks.flatten }, decCount := s.decCount + chunks.length })
  | [], s, c, _, h1, h2, h3 => by
    obtain ⟨⟩ := s
    dsimp only at h2
    subst h2
    simp [feed, Gcm.crypt]
  | b :: bs, s, c, hb, h1, h2, h3 => by
    have hb0 : b ≠ [] := hb b (by simp)
    rw [feed, decUpdate, if_pos h1, if_neg (fun h => hb0 (List.length_eq_zero_iff.mp h)), h2]
    dsimp only
    rw [updDec_live g c b h3]
    dsimp only
    rw [g.crypt_length, if_pos rfl]
    show (feed (decUpdate g) _ bs >>= _) = _
    rw [feed_dec g bs _ _ (fun b' h' => hb b' (by simp [h'])) (by exact h1) rfl (by exact h3), Res.ok_bind]
    dsimp only
    rw [List.flatten_cons, g.crypt_append, List.length_append, List.append_assoc,
      List.length_cons, Nat.add_assoc, Nat.add_comm 1]

/-- The associated data in effect: an object appends given data to what it already has. -/
def effAad (s : Stream) : Option Bytes → Bytes
  | none => List.replicate 16 0
  | some a => s.aad ++ a

/-- An object that is neither encrypting nor decrypting. -/
def Idle (s : Stream) : Prop := s.encSet = false ∧ s.decSet = false

theorem flatten_ne {chunks : List Bytes} (h0 : chunks ≠ []) (hb : ∀ b ∈ chunks, b ≠ []) : chunks.flatten ≠ [] := by
  cases chunks with
  | nil => exact absurd rfl h0
  | cons b bs =>
    intro h
    rw [List.flatten_cons, List.append_eq_nil_iff] at h
    exact hb b (by simp) h.1

/-- Everything but the end of an encryption. -/
theorem enc_upto (g : Gcm) (s : Stream) (hs : Idle s) (hk : 32 ≤ s.key.length) (iv : Bytes) (hiv : iv ≠ [])
    (aad : Option Bytes) (chunks : List Bytes) (hb : ∀ b ∈ chunks, b ≠ []) :
    encAll g s iv aad chunks = (do
      let ct := g.crypt (s.key.take 32) iv 0 chunks.flatten
      let (tag, s) ← check (encFinalize g { s with
        aad := effAad s aad, aadSet := true, encSet := true, total := chunks.flatten.length, encCount := chunks.length,
        ctx := some { key := s.key.take 32, iv := iv, aad := effAad s aad, ct := ct } } ct.length)
      .ok (ct, tag, s)) := by
  obtain ⟨key, a0, as0, es, ds, tot, ec, dc, cx⟩ := s
  obtain ⟨h1, h2⟩ := hs
  dsimp only at h1 h2 hk
  subst h1 h2
  rw [encAll, encInit]
  dsimp only
  rw [if_neg (by simp), if_neg (by simp), GcmCtx.init_ok _ _ hk hiv]
  cases aad with
  | none =>
    simp only [Res.ok_bind, check, initAad, setAad, Bool.true_or, if_true, Bool.and_self]
    rw [updAad_live _ _ rfl rfl]
    simp only [if_true, check, Res.ok_bind]
    rw [feed_enc g chunks _ _ hb rfl rfl rfl]
    simp only [Res.ok_bind, List.nil_append, List.length_nil, Nat.zero_add, effAad]
    rfl
  | some a =>
    simp only [Res.ok_bind, check, initAad, setAad, Bool.true_or, if_true, Bool.and_self]
    rw [updAad_live _ _ rfl rfl]
    simp only [if_true, check, Res.ok_bind]
    rw [feed_enc g chunks _ _ hb rfl rfl rfl]
    simp only [Res.ok_bind, List.nil_append, List.length_nil, Nat.zero_add, effAad]

theorem enc_all (g : Gcm) (s : Stream) (hs : Idle s) (hk : 32 ≤ s.key.length) (iv : Bytes) (hiv : iv ≠ [])
    (aad : Option Bytes) (chunks : List Bytes) (h0 : chunks ≠ []) (hb : ∀ b ∈ chunks, b ≠ [])
    (hlen : chunks.flatten.length < 2 ^ 32) :
    encAll g s iv aad chunks =
      .ok (g.crypt (s.key.take 32) iv 0 chunks.flatten,
        g.mac (s.key.take 32) iv (effAad s aad) (g.crypt (s.key.take 32) iv 0 chunks.flatten),
        { s with ctx := none, total := 0, encCount := 0, encSet := false, aadSet := false,
                 aad := List.replicate (effAad s aad).length 0 }) := by
  rw [enc_upto g s hs hk iv hiv aad chunks hb]
  have hc : 0 < chunks.length := List.length_pos_iff.mpr h0
  have hd : chunks.flatten.length / 2 ^ 32 * 2 ^ 32 = 0 := by rw [Nat.div_eq_of_lt hlen]
  dsimp only
  rw [encFinalize, if_pos (by simp [hc]), if_neg (by simp [g.crypt_length])]
  dsimp only
  rw [if_neg (fun h => h hd)]
  rfl

theorem dec_all (g : Gcm) (s : Stream) (hs : Idle s) (hk : 32 ≤ s.key.length) (iv tag : Bytes) (hiv : iv ≠ [])
    (ht : 1 ≤ tag.length ∧ tag.length ≤ 16) (aad : Option Bytes) (chunks : List Bytes) (h0 : chunks ≠ [])
    (hb : ∀ b ∈ chunks, b ≠ []) :
    decAll g s iv tag aad chunks =
      if (g.mac (s.key.take 32) iv (effAad s aad) chunks.flatten).take tag.length = tag then
        .ok (g.crypt (s.key.take 32) iv 0 chunks.flatten,
          { s with ctx := none, decCount := 0, decSet := false, aadSet := false,
                   aad := List.replicate (effAad s aad).length 0 })
      else .throw .decryptionFailed := by
  obtain ⟨key, a0, as0, es, ds, tot, ec, dc, cx⟩ := s
  obtain ⟨h1, h2⟩ := hs
  have hc : 0 < chunks.length := List.length_pos_iff.mpr h0
  dsimp only at h1 h2 hk
  subst h1 h2
  rw [decAll, decInit]
  dsimp only
  rw [if_neg (by simp), if_neg (by simp), GcmCtx.init_ok _ _ hk hiv, Res.ok_bind, GcmCtx.setTag_ok _ _ ht]
  have key : ∀ a, (check (Stream.setAad ⟨key, a, true, false, true, tot, ec, 0,
      some ⟨key.take 32, iv, [], [], some tag, false⟩⟩) >>= fun r =>
      feed (decUpdate g) r.2 chunks >>= fun r2 => check (r2.2.decFinalize g) >>= fun r3 => .ok (r2.1, r3.2)) =
      if (g.mac (key.take 32) iv a chunks.flatten).take tag.length = tag then
        .ok (g.crypt (key.take 32) iv 0 chunks.flatten,
          (⟨key, List.replicate a.length 0, false, false, false, tot, ec, 0, none⟩ : Stream))
      else .throw .decryptionFailed := by
    intro a
    rw [setAad]
    dsimp only
    rw [if_pos (by simp), updAad_live _ _ rfl rfl]
    simp only [if_true, check, Res.ok_bind]
    rw [feed_dec g chunks _ _ hb rfl rfl rfl]
    simp only [Res.ok_bind, List.nil_append, List.length_nil, Nat.zero_add]
    rw [decFinalize]
    dsimp only
    rw [if_pos (by simp [hc])]
    have hf : GcmCtx.finDec g ⟨key.take 32, iv, a, chunks.flatten, some tag, false⟩ =
        decide ((g.mac (key.take 32) iv a chunks.flatten).take tag.length = tag) := by
      rw [GcmCtx.finDec, GcmCtx.getTag]
      rw [Bool.eq_iff_iff, beq_iff_eq, decide_eq_true_iff]
    by_cases hm : (g.mac (key.take 32) iv a chunks.flatten).take tag.length = tag
    · rw [if_pos hm, if_pos (by rw [hf]; exact decide_eq_true hm)]
      rfl
    · rw [if_neg hm, if_neg (by rw [hf, decide_eq_false hm]; simp)]
      rfl
  cases aad with
  | none => exact key (List.replicate 16 0)
  | some a => exact key (a0 ++ a)

/-- C53: encrypting in chunks gives what encrypting the whole message at once gives, for every way of cutting the
message into (non-empty) chunks and for given, empty or default authentication data. Partial: less than 4 GiB; the
object has not been used with authentication data before (C83), or the default is used. -/
theorem C53_chunks_partial (g : Gcm) (s : Stream) (hs : Idle s) (hk : 32 ≤ s.key.length) (iv : Bytes) (hiv : iv ≠ [])
    (aad : Option Bytes) (ha : aad = none ∨ s.aad = []) (chunks : List Bytes) (h0 : chunks ≠ [])
    (hb : ∀ b ∈ chunks, b ≠ []) (hlen : chunks.flatten.length < 2 ^ 32) :
    ∃ ct tag s', encAll g s iv aad chunks = .ok (ct, tag, s') ∧ Idle s' ∧
      (({ key := s.key } : AuthEnc).setAadPtr aad).encrypt g iv chunks.flatten = .ok (ct, tag) := by
  refine ⟨_, _, _, enc_all g s hs hk iv hiv aad chunks h0 hb hlen, ⟨rfl, hs.2⟩, ?_⟩
  cases aad with
  | none => exact AuthEnc.encrypt_eq g s.key (List.replicate 16 0) iv _ hk hiv
  | some a =>
    have h : s.aad = [] := by rcases ha with h | h; cases h; exact h
    rw [show effAad s (some a) = a by simp [effAad, h]]
    exact AuthEnc.encrypt_eq g s.key a iv _ hk hiv

example : Idle { key := Sym.Ex.key32 } ∧ (∀ b ∈ [[1, 2], [3]], b ≠ ([] : Bytes)) := ⟨⟨rfl, rfl⟩, by simp⟩

/-- C53: what is encrypted in chunks is decrypted in any other chunks. Partial as above. -/
theorem C53_round_trip_partial (g : Gcm) (s r : Stream) (hs : Idle s) (hr : Idle r) (hkey : r.key = s.key)
    (hk : 32 ≤ s.key.length) (iv : Bytes) (hiv : iv ≠ []) (aad : Option Bytes)
    (ha : aad = none ∨ (s.aad = [] ∧ r.aad = [])) (chunks chunks' : List Bytes) (h0 : chunks ≠ [])
    (hb : ∀ b ∈ chunks, b ≠ []) (hlen : chunks.flatten.length < 2 ^ 32)
    (ct tag : Bytes) (s' : Stream) (henc : encAll g s iv aad chunks = .ok (ct, tag, s'))
    (hb' : ∀ b ∈ chunks', b ≠ []) (hc : chunks'.flatten = ct) :
    ∃ r', decAll g r iv tag aad chunks' = .ok (chunks.flatten, r') ∧ Idle r' := by
  rw [enc_all g s hs hk iv hiv aad chunks h0 hb hlen] at henc
  cases henc
  have he : effAad r aad = effAad s aad := by
    rcases ha with rfl | ⟨h1, h2⟩
    · rfl
    · cases aad <;> simp [effAad, h1, h2]
  have hne : chunks' ≠ [] := by
    rintro rfl
    have := flatten_ne h0 hb
    rw [List.flatten_nil, eq_comm, g.crypt_eq_nil] at hc
    exact this hc
  rw [dec_all g r hr (by rw [hkey]; exact hk) iv _ hiv (by rw [g.mac_length]; decide) aad chunks' hne hb', hc, he, hkey,
    if_pos (List.take_of_length_le (Nat.le_refl _)), g.crypt_crypt]
  exact ⟨_, rfl, hr.1, rfl⟩

/-- C53: a decryption of chunks with a tag of 16 bytes succeeds exactly when it is the tag of the ciphertext. -/
theorem C53_tag_checked (g : Gcm) (r : Stream) (hr : Idle r) (hk : 32 ≤ r.key.length) (iv tag : Bytes) (hiv : iv ≠ [])
    (ht : tag.length = 16) (aad : Option Bytes) (ha : aad = none ∨ r.aad = []) (chunks : List Bytes)
    (h0 : chunks ≠ []) (hb : ∀ b ∈ chunks, b ≠ []) :
    let expected := g.mac (r.key.take 32) iv (aad.getD (List.replicate 16 0)) chunks.flatten
    (tag = expected → ∃ pt r', decAll g r iv tag aad chunks = .ok (pt, r')) ∧
    (tag ≠ expected → decAll g r iv tag aad chunks = .throw .decryptionFailed) := by
  intro expected
  have he : effAad r aad = aad.getD (List.replicate 16 0) := by
    cases aad with
    | none => rfl
    | some a =>
      have h : r.aad = [] := by rcases ha with h | h; cases h; exact h
      simp [effAad, h]
  have hd := dec_all g r hr hk iv tag hiv (by omega) aad chunks h0 hb
  rw [he, List.take_of_length_le (Nat.le_of_eq (by rw [g.mac_length, ht]))] at hd
  constructor
  · intro h
    rw [if_pos h.symm] at hd
    exact ⟨_, _, hd⟩
  · intro h
    rw [if_neg (fun h' => h h'.symm)] at hd
    exact hd

/-- C53 is violated from 4 GiB on: the end of the encryption raises an error and there is no tag. -/
theorem C53_long_violated (g : Gcm) (s : Stream) (hs : Idle s) (hk : 32 ≤ s.key.length) (iv : Bytes) (hiv : iv ≠ [])
    (aad : Option Bytes) (chunks : List Bytes) (hb : ∀ b ∈ chunks, b ≠ [])
    (hlen : 2 ^ 32 ≤ chunks.flatten.length) :
    encAll g s iv aad chunks = .throw .unexpectedExtraBytes := by
  rw [enc_upto g s hs hk iv hiv aad chunks hb]
  have h0 : chunks ≠ [] := by
    rintro rfl
    simp at hlen
  have hc : 0 < chunks.length := List.length_pos_iff.mpr h0
  have hd : chunks.flatten.length / 2 ^ 32 * 2 ^ 32 ≠ 0 := by
    have : 1 ≤ chunks.flatten.length / 2 ^ 32 := (Nat.le_div_iff_mul_le (by decide)).mpr (by rw [Nat.one_mul]; exact hlen)
    omega
  dsimp only
  rw [encFinalize, if_pos (by simp [hc]), if_neg (by simp [g.crypt_length])]
  dsimp only
  rw [if_pos hd]
  rfl

/-! ### C82: truncated tags -/

/-- C82 is violated: decryption of a stream accepts the first byte (or more) of the tag in place of the tag. -/
theorem C82_short_tag_violated (g : Gcm) (s r : Stream) (hs : Idle s) (hr : Idle r) (hkey : r.key = s.key)
    (hk : 32 ≤ s.key.length) (iv : Bytes) (hiv : iv ≠ []) (chunks : List Bytes) (h0 : chunks ≠ [])
    (hb : ∀ b ∈ chunks, b ≠ []) (hlen : chunks.flatten.length < 2 ^ 32)
    (ct tag : Bytes) (s' : Stream) (henc : encAll g s iv none chunks = .ok (ct, tag, s')) (n : Nat)
    (hn : 1 ≤ n) :
    ∃ r', decAll g r iv (tag.take n) none [ct] = .ok (chunks.flatten, r') := by
  rw [enc_all g s hs hk iv hiv none chunks h0 hb hlen] at henc
  cases henc
  have hm := g.mac_length (s.key.take 32) iv (effAad s none) (g.crypt (s.key.take 32) iv 0 chunks.flatten)
  have hct : g.crypt (s.key.take 32) iv 0 chunks.flatten ≠ [] := by
    rw [ne_eq, g.crypt_eq_nil]; exact flatten_ne h0 hb
  rw [dec_all g r hr (by rw [hkey]; exact hk) iv _ hiv (by rw [List.length_take, hm]; omega) none _ (by simp)
    (by intro b hb; rw [List.mem_singleton] at hb; rw [hb]; exact hct), hkey]
  simp only [List.flatten_cons, List.flatten_nil, List.append_nil]
  rw [show effAad r none = effAad s none from rfl, if_pos, g.crypt_crypt]
  · exact ⟨_, rfl⟩
  · rw [List.length_take, List.take_eq_take_iff]
    omega

/-- C82, what holds: tags of any length from 1 to 16 are accepted only if they agree with the tag as far as they
go, and other lengths are never accepted. Missing: a minimum length. -/
theorem C82_prefix_partial (g : Gcm) (r : Stream) (hr : Idle r) (hk : 32 ≤ r.key.length) (iv tag : Bytes)
    (hiv : iv ≠ []) (ht : 1 ≤ tag.length ∧ tag.length ≤ 16) (chunks : List Bytes) (h0 : chunks ≠ [])
    (hb : ∀ b ∈ chunks, b ≠ []) (pt : Bytes) (r' : Stream) (hd : decAll g r iv tag none chunks = .ok (pt, r')) :
    tag <+: g.mac (r.key.take 32) iv (List.replicate 16 0) chunks.flatten := by
  rw [dec_all g r hr hk iv tag hiv ht none chunks h0 hb] at hd
  split at hd
  · next h => rw [← h]; exact List.take_prefix _ _
  · cases hd

/-! ### C83: using an object again -/

/-- C83 is violated: an object that has encrypted with given authentication data computes other tags from then on;
what it encrypts next cannot be decrypted by a new object with the same authentication data. -/
theorem C83_reuse_violated :
    ∃ (g : Gcm) (key iv a : Bytes) (ct tag ct' tag' : Bytes) (s s' : Stream), key.length = 32 ∧ iv.length = 16 ∧
      encAll g { key := key } iv (some a) [[1]] = .ok (ct, tag, s) ∧
      encAll g s iv (some a) [[1]] = .ok (ct', tag', s') ∧
      (∃ r, decAll g { key := key } iv tag (some a) [ct] = .ok ([1], r)) ∧
      decAll g { key := key } iv tag' (some a) [ct'] = .throw .decryptionFailed := by
  have hk : (32 : Nat) ≤ Sym.Ex.key32.length := by decide
  have hiv : Sym.Ex.iv16 ≠ [] := by decide
  have h0 : ([[1]] : List Bytes) ≠ [] := by decide
  have hb : ∀ b ∈ ([[1]] : List Bytes), b ≠ [] := by decide
  have hl : ([[1]] : List Bytes).flatten.length < 2 ^ 32 := by decide
  have e1 := enc_all Sym.Ex.toy { key := Sym.Ex.key32 } ⟨rfl, rfl⟩ hk _ hiv (some [2]) [[1]] h0 hb hl
  refine ⟨Sym.Ex.toy, Sym.Ex.key32, Sym.Ex.iv16, [2], _, _, _, _, _, _, rfl, rfl, e1,
    enc_all Sym.Ex.toy _ ⟨rfl, rfl⟩ hk _ hiv (some [2]) [[1]] h0 hb hl, ?_, ?_⟩
  · have hce : Sym.Ex.toy.crypt Sym.Ex.key32 Sym.Ex.iv16 0 [1] =
        Sym.Ex.toy.crypt (Sym.Ex.key32.take 32) Sym.Ex.iv16 0 ([[1]] : List Bytes).flatten := by decide +kernel
    obtain ⟨r, h, -⟩ := C53_round_trip_partial Sym.Ex.toy { key := Sym.Ex.key32 } { key := Sym.Ex.key32 } ⟨rfl, rfl⟩
      ⟨rfl, rfl⟩ rfl hk Sym.Ex.iv16 hiv (some [2]) (Or.inr ⟨rfl, rfl⟩) [[1]] [Sym.Ex.toy.crypt Sym.Ex.key32 Sym.Ex.iv16 0 [1]] h0 hb hl _ _ _ e1
      (by intro b hb; rw [List.mem_singleton] at hb; subst hb; decide +kernel) (by decide +kernel)
    rw [hce] at h
    exact ⟨r, h⟩
  · rw [dec_all Sym.Ex.toy _ ⟨rfl, rfl⟩ hk _ _ hiv (by rw [Sym.Ex.toy.mac_length]; decide) (some [2]) _ (by simp)
      (by intro b hb; rw [List.mem_singleton] at hb; subst hb; decide +kernel), if_neg]
    decide +kernel

/-- C83, what holds: with the default authentication data an object may be used any number of times; each
encryption gives what a new object gives. -/
theorem C83_default_partial (g : Gcm) (s : Stream) (hs : Idle s) (hk : 32 ≤ s.key.length) (iv : Bytes) (hiv : iv ≠ [])
    (chunks : List Bytes) (h0 : chunks ≠ []) (hb : ∀ b ∈ chunks, b ≠ []) (hlen : chunks.flatten.length < 2 ^ 32) :
    ∃ ct tag s1 s2, encAll g s iv none chunks = .ok (ct, tag, s1) ∧
      encAll g { key := s.key } iv none chunks = .ok (ct, tag, s2) ∧ Idle s1 ∧ s1.key = s.key :=
  ⟨_, _, _, _, enc_all g s hs hk iv hiv none chunks h0 hb hlen,
    enc_all g { key := s.key } ⟨rfl, rfl⟩ hk iv hiv none chunks h0 hb hlen, ⟨rfl, hs.2⟩, rfl⟩

end Stream
end Abe
