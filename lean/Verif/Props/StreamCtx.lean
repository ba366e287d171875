import Verif.Props.Stream
/-!
# The stream context: C53, C55, C57, C81

`g : Gcm` stands for AES-256-GCM; nothing is assumed about it but that tags have 16 bytes.
-/
set_option linter.unusedSimpArgs false
set_option linter.unusedSectionVars false
set_option autoImplicit false
namespace Abe
namespace StreamCtx

/-! ### Whole messages -/

/-- A call that must return `OpenABE_NOERROR`. -/
def must {α : Type} : Res (Option Err × α) → Res α
  | .ok (none, a) => .ok a
  | .ok (some e, _) => .throw e
  | .throw e => .throw e
  | .ub => .ub
  | .abort => .abort

/-- One call per chunk: all outputs together. -/
def feed (f : StreamCtx → Bytes → Res (Option Err × Bytes × StreamCtx)) :
    StreamCtx → List Bytes → Res (Bytes × StreamCtx)
  | c, [] => .ok ([], c)
  | c, b :: bs => do
    let (o, c) ← must (f c b)
    let (o', c) ← feed f c bs
    .ok (o ++ o', c)

/-- A whole encryption in which every call returns `OpenABE_NOERROR`: IV, ciphertext, tag and context. -/
def encAll (g : Gcm) (c : StreamCtx) (id iv : Bytes) (chunks : List Bytes) :
    Res (Bytes × Bytes × Bytes × StreamCtx) := do
  let (iv, c) ← must (c.encInit id iv)
  let (ct, c) ← feed (encUpdate g) c chunks
  let (tag, c) ← must (c.encFinalize g ct.length)
  .ok (iv, ct, tag, c)

/-- A whole decryption in which every call returns `OpenABE_NOERROR`: plaintext and context. -/
def decAll (g : Gcm) (c : StreamCtx) (id iv tag : Bytes) (chunks : List Bytes) : Res (Bytes × StreamCtx) := do
  let c ← must (c.decInit id iv tag)
  let (pt, c) ← feed (decUpdate g) c chunks
  let c ← must (c.decFinalize g)
  .ok (pt, c)

theorem feed_enc (g : Gcm) : ∀ (chunks : List Bytes) (c : StreamCtx) (s s' : Stream) (o : Bytes), c.enc = some s →
    Stream.feed (Stream.encUpdate g) s chunks = .ok (o, s') →
    feed (encUpdate g) c chunks = .ok (o, { c with enc := some s' })
  | [], c, s, s', o, h, hf => by
    cases hf
    obtain ⟨⟩ := c
    dsimp only at h
    subst h
    rfl
  | b :: bs, c, s, s', o, h, hf => by
    rw [Stream.feed] at hf
    obtain ⟨⟨o1, s1⟩, h1, hf⟩ := (Res.bind_eq_ok _ _ _).mp hf
    obtain ⟨⟨o2, s2⟩, h2, hf⟩ := (Res.bind_eq_ok _ _ _).mp hf
    cases hf
    rw [feed, encUpdate, h]
    dsimp only
    cases hu : Stream.encUpdate g s b with
    | throw e => rw [hu] at h1; cases h1
    | ub => rw [hu] at h1; cases h1
    | abort => rw [hu] at h1; cases h1
    | ok t =>
      obtain ⟨sig, out, st⟩ := t
      rw [hu] at h1
      cases sig with
      | exc e => cases h1
      | ret e =>
        cases e with
        | some e => cases h1
        | none =>
          cases h1
          rw [Res.ok_bind]
          show (feed (encUpdate g) _ bs >>= _) = _
          rw [feed_enc g bs _ s1 s' o2 rfl h2, Res.ok_bind]

theorem feed_dec (g : Gcm) : ∀ (chunks : List Bytes) (c : StreamCtx) (s s' : Stream) (o : Bytes), c.dec = some s →
    Stream.feed (Stream.decUpdate g) s chunks = .ok (o, s') →
    feed (decUpdate g) c chunks = .ok (o, { c with dec := some s' })
  | [], c, s, s', o, h, hf => by
    cases hf
    obtain ⟨⟩ := c
    dsimp only at h
    subst h
    rfl
  | b :: bs, c, s, s', o, h, hf => by
    rw [Stream.feed] at hf
    obtain ⟨⟨o1, s1⟩, h1, hf⟩ := (Res.bind_eq_ok _ _ _).mp hf
    obtain ⟨⟨o2, s2⟩, h2, hf⟩ := (Res.bind_eq_ok _ _ _).mp hf
    cases hf
    rw [feed, decUpdate, h]
    dsimp only
    cases hu : Stream.decUpdate g s b with
    | throw e => rw [hu] at h1; cases h1
    | ub => rw [hu] at h1; cases h1
    | abort => rw [hu] at h1; cases h1
    | ok t =>
      obtain ⟨sig, out, st⟩ := t
      rw [hu] at h1
      cases sig with
      | exc e => cases h1
      | ret e =>
        cases e with
        | some e => cases h1
        | none =>
          cases h1
          rw [Res.ok_bind]
          show (feed (decUpdate g) _ bs >>= _) = _
          rw [feed_dec g bs _ s1 s' o2 rfl h2, Res.ok_bind]

/-- The object after the start of an encryption. -/
theorem encInit_ok (c : StreamCtx) (id iv : Bytes) (k : SymKey) (hk : (c.keys.getSecretKey id).1 = some k)
    (hl : 32 ≤ k.data.length) (hiv : iv ≠ []) :
    c.encInit id iv = .ok (none, iv, { c with
      keys := (c.keys.getSecretKey id).2,
      enc := some ⟨k.data, List.replicate 16 0, true, true, false, 0, 0, 2 ^ 64 - 1,
        some ⟨k.data.take 32, iv, List.replicate 16 0, [], none, false⟩⟩ }) := by
  rw [encInit, hk]
  dsimp only
  rw [Stream.encInit, if_neg (by simp), if_neg (by simp), GcmCtx.init_ok _ _ hl hiv]
  rfl

/-- The object after the start of a decryption, for any tag. -/
theorem decInit_ok (c : StreamCtx) (id iv tag : Bytes) (k : SymKey) (hk : (c.keys.getSecretKey id).1 = some k)
    (hl : 32 ≤ k.data.length) (hiv : iv ≠ []) :
    ∃ t, c.decInit id iv tag = .ok (none, { c with
      keys := (c.keys.getSecretKey id).2,
      dec := some ⟨k.data, List.replicate 16 0, true, false, true, 2 ^ 64 - 1, 2 ^ 64 - 1, 0,
        some ⟨k.data.take 32, iv, List.replicate 16 0, [], t, false⟩⟩ }) := by
  rw [decInit, hk]
  dsimp only
  rw [Stream.decInit, if_neg (by simp), if_neg (by simp), GcmCtx.init_ok _ _ hl hiv, Res.ok_bind, GcmCtx.setTag]
  split
  · exact ⟨some tag, rfl⟩
  · exact ⟨none, rfl⟩

theorem enc_all (g : Gcm) (c : StreamCtx) (id iv : Bytes) (k : SymKey) (hk : (c.keys.getSecretKey id).1 = some k)
    (hl : 32 ≤ k.data.length) (hiv : iv ≠ []) (chunks : List Bytes) (h0 : chunks ≠ [])
    (hb : ∀ b ∈ chunks, b ≠ []) (hlen : chunks.flatten.length < 2 ^ 32) :
    encAll g c id iv chunks =
      .ok (iv, g.crypt (k.data.take 32) iv 0 chunks.flatten,
        g.mac (k.data.take 32) iv (List.replicate 16 0) (g.crypt (k.data.take 32) iv 0 chunks.flatten),
        { c with keys := (c.keys.getSecretKey id).2, enc := none }) := by
  have hc : 0 < chunks.length := List.length_pos_iff.mpr h0
  have hd : chunks.flatten.length / 2 ^ 32 * 2 ^ 32 = 0 := by rw [Nat.div_eq_of_lt hlen]
  rw [encAll, encInit_ok c id iv k hk hl hiv, must, Res.ok_bind]
  dsimp only
  rw [feed_enc g chunks _ _ _ _ rfl (Stream.feed_enc g chunks _ _ hb rfl rfl rfl), Res.ok_bind]
  dsimp only
  rw [encFinalize]
  dsimp only
  rw [Stream.encFinalize]
  dsimp only
  rw [if_pos (by simp [hc]), if_neg (by simp [g.crypt_length]), if_neg (fun h => h (by rw [Nat.zero_add]; exact hd))]
  rfl

theorem dec_all (g : Gcm) (c : StreamCtx) (id iv tag : Bytes) (k : SymKey)
    (hk : (c.keys.getSecretKey id).1 = some k) (hl : 32 ≤ k.data.length) (hiv : iv ≠ []) (chunks : List Bytes)
    (h0 : chunks ≠ []) (hb : ∀ b ∈ chunks, b ≠ []) :
    decAll g c id iv tag chunks =
      .ok (g.crypt (k.data.take 32) iv 0 chunks.flatten,
        { c with keys := (c.keys.getSecretKey id).2, dec := none }) := by
  have hc : 0 < chunks.length := List.length_pos_iff.mpr h0
  obtain ⟨t, ht⟩ := decInit_ok c id iv tag k hk hl hiv
  rw [decAll, ht, must, Res.ok_bind]
  dsimp only
  rw [feed_dec g chunks _ _ _ _ rfl (Stream.feed_dec g chunks _ _ hb rfl rfl rfl), Res.ok_bind]
  dsimp only
  rw [decFinalize]
  dsimp only
  rw [Stream.decFinalize]
  dsimp only
  rw [if_pos (by simp [hc])]
  split
  · rfl
  · rfl

theorem getSecretKey_again (ks : KeyStore SymKey) (id : Bytes) :
    ((ks.getSecretKey id).2.getSecretKey id).1 = (ks.getSecretKey id).1 := by
  have h := KeyStore.touch_spec ks.sec id
  have h' := KeyStore.touch_spec (KeyStore.touch ks.sec id).2 id
  show (KeyStore.touch (KeyStore.touch ks.sec id).2 id).1 = (KeyStore.touch ks.sec id).1
  rw [h'.1, h.2, h.1]

/-- Key generation that succeeds stores the random bytes under the name. -/
theorem keygen_ok {c c1 : StreamCtx} {id rnd : Bytes} (h : c.keygen id rnd = .ok (none, c1)) :
    c1 = { c with keys := c.keys.addKey id { data := rnd } .sec } ∧
    (c1.keys.getSecretKey id).1 = some { data := rnd } ∧ (rnd.length = 16 ∨ rnd.length = 32) := by
  rw [keygen] at h
  split at h
  · cases h
  · rw [SymKey.generate, SymKey.setSymmetricKey] at h
    by_cases hd : rnd.length ≠ shortKeyBytes ∧ rnd.length ≠ symKeyBytes
    · rw [if_pos hd] at h; cases h
    · rw [if_neg hd] at h
      cases h
      refine ⟨rfl, ?_, by simp only [shortKeyBytes, symKeyBytes] at hd; omega⟩
      show (KeyStore.touch (SMap.insert id (some _) c.keys.sec) id).1 = _
      rw [(KeyStore.touch_spec _ _).1, SMap.find_insert, if_pos rfl]
      rfl

/-- C53, C55: with a key made by `keygen`, everything encrypted in chunks is decrypted in any other chunks, and all
calls return `OpenABE_NOERROR`. Partial: less than 4 GiB in non-empty chunks. -/
theorem C53_context_round_trip_partial (g : Gcm) (c c1 : StreamCtx) (id rnd iv : Bytes) (hr : rnd.length = 32)
    (hiv : iv ≠ []) (hg : c.keygen id rnd = .ok (none, c1)) (chunks chunks' : List Bytes) (h0 : chunks ≠ [])
    (hb : ∀ b ∈ chunks, b ≠ []) (hlen : chunks.flatten.length < 2 ^ 32) (hb' : ∀ b ∈ chunks', b ≠ []) :
    ∃ ct tag c2, encAll g c1 id iv chunks = .ok (iv, ct, tag, c2) ∧
      (chunks'.flatten = ct → ∃ c3, decAll g c2 id iv tag chunks' = .ok (chunks.flatten, c3)) := by
  obtain ⟨-, hk, -⟩ := keygen_ok hg
  have hl : 32 ≤ ({ data := rnd } : SymKey).data.length := Nat.le_of_eq hr.symm
  refine ⟨_, _, _, enc_all g c1 id iv _ hk hl hiv chunks h0 hb hlen, fun hc => ?_⟩
  have hne : chunks' ≠ [] := by
    rintro rfl
    have := Stream.flatten_ne h0 hb
    rw [List.flatten_nil, eq_comm, g.crypt_eq_nil] at hc
    exact this hc
  rw [dec_all g _ id iv _ _ (by rw [getSecretKey_again]; exact hk) hl hiv chunks' hne hb', hc, g.crypt_crypt]
  exact ⟨_, rfl⟩

example : ∃ c1, ({} : StreamCtx).keygen b!"k" Sym.Ex.key32 = .ok (none, c1) := ⟨_, rfl⟩

/-! ### C55: wrong tags -/

/-- C55 is violated: the context decrypts any ciphertext with any tag, of any length, and no call returns an
error. -/
theorem C55_any_tag_violated (g : Gcm) (c c1 : StreamCtx) (id rnd iv tag : Bytes) (hr : rnd.length = 32)
    (hiv : iv ≠ []) (hg : c.keygen id rnd = .ok (none, c1)) (chunks : List Bytes) (h0 : chunks ≠ [])
    (hb : ∀ b ∈ chunks, b ≠ []) :
    ∃ pt c2, decAll g c1 id iv tag chunks = .ok (pt, c2) := by
  obtain ⟨-, hk, -⟩ := keygen_ok hg
  exact ⟨_, _, dec_all g c1 id iv tag _ hk (Nat.le_of_eq hr.symm) hiv chunks h0 hb⟩

/-- C55, what holds: the stream object reports a tag of 16 bytes that is not the tag of the ciphertext. Missing:
the context passes that report on. -/
theorem C55_stream_reports_partial (g : Gcm) (key iv tag : Bytes) (hk : 32 ≤ key.length) (hiv : iv ≠ [])
    (ht : tag.length = 16) (aad : Option Bytes) (chunks : List Bytes) (h0 : chunks ≠ [])
    (hb : ∀ b ∈ chunks, b ≠ [])
    (hw : tag ≠ g.mac (key.take 32) iv (aad.getD (List.replicate 16 0)) chunks.flatten) :
    Stream.decAll g { key := key } iv tag aad chunks = .throw .decryptionFailed :=
  (Stream.C53_tag_checked g { key := key } ⟨rfl, rfl⟩ hk iv tag hiv ht aad (Or.inr rfl) chunks h0 hb).2 hw

example : List.replicate 16 0 ≠ Sym.Ex.toy.mac (Sym.Ex.key32.take 32) Sym.Ex.iv16
    ((none : Option Bytes).getD (List.replicate 16 0)) [[1], [2]].flatten := by decide +kernel

/-! ### C57: export and import -/

/-- C57 is violated: what the context exports for a key it generated does not depend on the key, and loading it
always fails. -/
theorem C57_reload_violated (c c1 : StreamCtx) (id rnd : Bytes) (hp : (SMap.find id c.keys.pub).join = none)
    (hg : c.keygen id rnd = .ok (none, c1)) :
    ∃ c2, c1.exportKey id = (none, [0, 0, 0, 2, libraryVersion, 0, 0, 0, 0, 0], c2) ∧
      ∀ (c' : StreamCtx) (id' rnd' : Bytes),
        c'.loadPrivateKey id' [0, 0, 0, 2, libraryVersion, 0, 0, 0, 0, 0] rnd' = .ok (some .invalidLength, c') := by
  obtain ⟨rfl, hk, -⟩ := keygen_ok hg
  refine ⟨{ c with keys := (KeyStore.getKey (c.keys.addKey id { data := rnd } .sec) id).2 }, ?_, fun c' id' rnd' => rfl⟩
  rw [exportKey]
  have h1 : (KeyStore.getKey (c.keys.addKey id { data := rnd } .sec) id).1 = some { data := rnd } := by
    have hq : (KeyStore.getPublicKey (c.keys.addKey id { data := rnd } .sec) id).1 = none := by
      show (KeyStore.touch c.keys.pub id).1 = none
      rw [(KeyStore.touch_spec _ _).1, hp]
    rw [KeyStore.getKey, hq]
    exact hk
  have h2 : ({ data := rnd } : SymKey).exportBase = [0, 0, 0, 2, libraryVersion, 0, 0, 0, 0, 0] := by
    show ({} : SymKey).exportBase = _
    decide +kernel
  dsimp only
  rw [h1]
  dsimp only
  rw [h2]

example : ∃ c1, ({} : StreamCtx).keygen b!"k" Sym.Ex.key32 = .ok (none, c1) ∧
    (SMap.find b!"k" ({} : StreamCtx).keys.pub).join = none := ⟨_, rfl, rfl⟩

/-- C57, what holds: a key exported by the key object itself (not through the keystore) can be loaded into a
context and is then the key used under the given name. -/
theorem C57_direct_export_partial (c : StreamCtx) (data id rnd : Bytes) (hd : data.length = 16 ∨ data.length = 32) :
    ∃ c', c.loadPrivateKey id ({ data := data } : SymKey).exportBytes rnd = .ok (none, c') ∧
      (c'.keys.getSecretKey id).1 = some { data := data } := by
  have h := Sym.C56_plain_round_trip_partial { data := data } {} rnd ⟨rfl, rfl, rfl, rfl⟩ hd
  refine ⟨{ c with keys := c.keys.addKey id { data := data } .sec }, ?_, ?_⟩
  · rw [loadPrivateKey, h]
  · show (KeyStore.touch (SMap.insert id (some _) c.keys.sec) id).1 = _
    rw [(KeyStore.touch_spec _ _).1, SMap.find_insert, if_pos rfl]
    rfl

/-! ### C81: histories of the context -/

/-- C81 is violated: loading an empty blob returns `OpenABE_NOERROR` and stores a key without data; starting an
encryption or decryption with it reads beyond the key. -/
theorem C81_empty_blob_violated (c : StreamCtx) (id rnd iv tag : Bytes) :
    ∃ c', c.loadPrivateKey id [] rnd = .ok (none, c') ∧ c'.encInit id iv = .ub ∧ c'.decInit id iv tag = .ub := by
  have hk : (KeyStore.getSecretKey (c.keys.addKey id ({} : SymKey) .sec) id).1 = some {} := by
    show (KeyStore.touch (SMap.insert id (some _) c.keys.sec) id).1 = _
    rw [(KeyStore.touch_spec _ _).1, SMap.find_insert, if_pos rfl]
    rfl
  have hi : GcmCtx.init ([] : Bytes) iv = .ub := GcmCtx.init_short _ _ (by simp)
  refine ⟨{ c with keys := c.keys.addKey id {} .sec }, rfl, ?_, ?_⟩
  · rw [encInit, hk]
    dsimp only
    rw [Stream.encInit, if_neg (by simp), if_neg (by simp), hi]
    rfl
  · rw [decInit, hk]
    dsimp only
    rw [Stream.decInit, if_neg (by simp), if_neg (by simp), hi]
    rfl

/-- The context after a call, whatever it returned. -/
def call (g : Gcm) (c : StreamCtx) : Call → Res StreamCtx
  | .keygen id rnd => do let r ← c.keygen id rnd; .ok r.2
  | .exportKey id => .ok (c.exportKey id).2.2
  | .load id blob rnd =>
    match c.loadPrivateKey id blob rnd with
    | .throw _ => .ok c
    | r => do let r ← r; .ok r.2
  | .delete id => .ok (c.deleteKey id).2
  | .encInit id iv => do let r ← c.encInit id iv; .ok r.2.2
  | .encUpdate pt => do let r ← c.encUpdate g pt; .ok r.2.2
  | .encFinalize n => do let r ← c.encFinalize g n; .ok r.2.2
  | .decInit id iv tag => do let r ← c.decInit id iv tag; .ok r.2
  | .decUpdate ct => do let r ← c.decUpdate g ct; .ok r.2.2
  | .decFinalize => do let r ← c.decFinalize g; .ok r.2

def run (g : Gcm) : StreamCtx → List Call → Res StreamCtx
  | c, [] => .ok c
  | c, x :: xs => do
    let c ← c.call g x
    run g c xs

/-- What the user has to take care of: 32 random bytes for keys, blobs that contain keys of 32 bytes or nothing
that can be loaded at all, IVs that are not empty. -/
def Careful : Call → Prop
  | .keygen _ rnd => rnd.length = 32
  | .load _ blob rnd => ∀ e k, SymKey.load {} blob rnd = .ok (e, k) → k.data.length = 32
  | .encInit _ iv => iv ≠ []
  | .decInit _ iv _ => iv ≠ []
  | _ => True

/-- All stored keys are long enough, stream objects are in some phase of theirs. -/
def Inv (c : StreamCtx) : Prop :=
  (∃ s : KeyStore.Spec SymKey, KeyStore.Rep c.keys s ∧ ∀ id k, s.sec id = some k → 32 ≤ k.data.length) ∧
  (∀ s, c.enc = some s → ∃ key p, 32 ≤ key.length ∧ Stream.Rel key p s) ∧
  (∀ s, c.dec = some s → ∃ key p, 32 ≤ key.length ∧ Stream.Rel key p s)

theorem defaultAad_ok {key : Bytes} {p : Stream.Phase} {s : Stream} (h : Stream.Rel key p s) :
    ∃ e s', defaultAad s = .ok (e, s') ∧ Stream.Rel key p s' := by
  obtain ⟨⟨sig, out, st⟩, h1, h2⟩ := Stream.rel_setAad (Stream.rel_initAad h none)
  rw [defaultAad, h1, Res.ok_bind]
  cases sig with
  | ret e => exact ⟨_, _, rfl, h2⟩
  | exc e => exact ⟨_, _, rfl, h2⟩

theorem load_defined (k : SymKey) (blob rnd : Bytes) : (k.load blob rnd).Defined := by
  rw [SymKey.load]
  split
  · trivial
  · refine Res.defined_bind _ _ (BS.smartUnpack_defined _ _) ?_
    rintro ⟨header, index⟩ -
    dsimp only
    split
    · trivial
    · next hh =>
      refine Res.defined_bind _ _ ?_ ?_
      · obtain _ | ⟨a, _ | ⟨b, t⟩⟩ := header
        · simp at hh
        · simp at hh
        · trivial
      rintro alg -
      have tail : ∀ key : SymKey, (BS.smartUnpack blob index >>= fun x => key.setSymmetricKey x.1 >>= fun key =>
          (Res.ok (none, key) : Res (Option Err × SymKey))).Defined := by
        intro key
        refine Res.defined_bind _ _ (BS.smartUnpack_defined _ _) ?_
        rintro ⟨kb, _⟩ -
        refine Res.defined_bind _ _ ?_ fun _ _ => trivial
        rw [SymKey.setSymmetricKey]
        split <;> trivial
      split
      · refine Res.defined_bind _ _ ?_ fun key _ => tail key
        unfold SymKey.new
        split
        · trivial
        · refine Res.defined_bind _ _ ?_ ?_
          · rw [getSchemeID]
            split <;> trivial
          · intro a _
            split <;> trivial
      · exact tail {}

theorem add_inv {c : StreamCtx} (h : Inv c) (id : Bytes) (k : SymKey) (hk : 32 ≤ k.data.length) :
    Inv { c with keys := c.keys.addKey id k .sec } := by
  obtain ⟨⟨s, hr, hs⟩, h2, h3⟩ := h
  refine ⟨⟨_, (KeyStore.step_spec hr (.add id k .sec)).2, ?_⟩, h2, h3⟩
  intro id' k' h'
  simp only [KeyStore.Spec.step] at h'
  split at h'
  · cases h'; exact hk
  · exact hs id' k' h'

theorem call_inv (g : Gcm) {c : StreamCtx} (h : Inv c) (x : Call) (hx : Careful x) :
    ∃ c', c.call g x = .ok c' ∧ Inv c' := by
  cases x with
  | keygen id rnd =>
    rw [call, keygen]
    split
    · exact ⟨_, rfl, h⟩
    · rw [SymKey.generate, SymKey.setSymmetricKey, if_neg (by simp [symKeyBytes, show rnd.length = 32 from hx])]
      exact ⟨_, rfl, add_inv h id _ (Nat.le_of_eq (show rnd.length = 32 from hx).symm)⟩
  | exportKey id =>
    refine ⟨_, rfl, ?_⟩
    obtain ⟨⟨s, hr, hs⟩, h2, h3⟩ := h
    rw [exportKey]
    split
    · exact ⟨⟨s, (KeyStore.getKey_spec hr id).2, hs⟩, h2, h3⟩
    · exact ⟨⟨s, (KeyStore.getKey_spec hr id).2, hs⟩, h2, h3⟩
  | load id blob rnd =>
    have hd := load_defined {} blob rnd
    rw [call, loadPrivateKey]
    cases hl : SymKey.load {} blob rnd with
    | ok r =>
      obtain ⟨e, k⟩ := r
      exact ⟨_, rfl, add_inv h id k (Nat.le_of_eq (hx e k hl).symm)⟩
    | throw e => cases e <;> exact ⟨_, rfl, h⟩
    | ub => rw [hl] at hd; exact hd.elim
    | abort => rw [hl] at hd; exact hd.elim
  | delete id =>
    refine ⟨_, rfl, ?_⟩
    obtain ⟨⟨s, hr, hs⟩, h2, h3⟩ := h
    refine ⟨⟨_, (KeyStore.deleteKey_spec hr id).2, ?_⟩, h2, h3⟩
    intro id' k' h'
    simp only at h'
    split at h'
    · cases h'
    · exact hs id' k' h'
  | encInit id iv =>
    obtain ⟨⟨s, hr, hs⟩, h2, h3⟩ := h
    have hg := KeyStore.getSecretKey_spec hr id
    rw [call, encInit]
    dsimp only
    cases hk : (c.keys.getSecretKey id).1 with
    | none => exact ⟨_, rfl, ⟨s, hg.2, hs⟩, (by intro s h; cases h), h3⟩
    | some k =>
      have hl : 32 ≤ k.data.length := hs id k (by rw [← hg.1, hk])
      obtain ⟨⟨sig, out, st⟩, e1, e2⟩ :=
        Stream.rel_call (g := g) hl (Stream.rel_new k.data) (.encInit iv) hx
      replace e1 : Stream.encInit { key := k.data } iv = _ := e1
      dsimp only
      rw [e1, Res.ok_bind]
      cases sig with
      | exc e => exact ⟨_, rfl, ⟨s, hg.2, hs⟩, (by rintro s ⟨⟩; exact ⟨_, _, hl, e2⟩), h3⟩
      | ret e =>
        cases e with
        | some e => exact ⟨_, rfl, ⟨s, hg.2, hs⟩, (by rintro s ⟨⟩; exact ⟨_, _, hl, e2⟩), h3⟩
        | none =>
          obtain ⟨e, s', e3, e4⟩ := defaultAad_ok e2
          dsimp only
          dsimp only at e3
          rw [e3]
          exact ⟨_, rfl, ⟨s, hg.2, hs⟩, (by rintro s ⟨⟩; exact ⟨_, _, hl, e4⟩), h3⟩
  | encUpdate pt =>
    rw [call, encUpdate]
    cases he : c.enc with
    | none => exact ⟨_, rfl, h⟩
    | some s =>
      obtain ⟨key, p, hk, hr⟩ := h.2.1 s he
      obtain ⟨⟨sig, out, st⟩, e1, e2⟩ := Stream.rel_call (g := g) hk hr (.encUpdate pt) trivial
      replace e1 : Stream.encUpdate g s pt = _ := e1
      dsimp only
      rw [e1]
      cases sig <;> exact ⟨_, rfl, h.1, (by rintro s ⟨⟩; exact ⟨_, _, hk, e2⟩), h.2.2⟩
  | encFinalize n =>
    rw [call, encFinalize]
    cases he : c.enc with
    | none => exact ⟨_, rfl, h⟩
    | some s =>
      obtain ⟨key, p, hk, hr⟩ := h.2.1 s he
      obtain ⟨⟨sig, out, st⟩, e1, e2⟩ := Stream.rel_call (g := g) hk hr (.encFinalize n) trivial
      replace e1 : Stream.encFinalize g s n = _ := e1
      dsimp only
      rw [e1]
      cases sig with
      | ret e => exact ⟨_, rfl, h.1, (by rintro s ⟨⟩), h.2.2⟩
      | exc e => exact ⟨_, rfl, h.1, (by rintro s ⟨⟩; exact ⟨_, _, hk, e2⟩), h.2.2⟩
  | decInit id iv tag =>
    obtain ⟨⟨s, hr, hs⟩, h2, h3⟩ := h
    have hg := KeyStore.getSecretKey_spec hr id
    rw [call, decInit]
    dsimp only
    cases hk : (c.keys.getSecretKey id).1 with
    | none => exact ⟨_, rfl, ⟨s, hg.2, hs⟩, h2, (by intro s h; cases h)⟩
    | some k =>
      have hl : 32 ≤ k.data.length := hs id k (by rw [← hg.1, hk])
      obtain ⟨⟨sig, out, st⟩, e1, e2⟩ :=
        Stream.rel_call (g := g) hl (Stream.rel_new k.data) (.decInit iv tag) hx
      replace e1 : Stream.decInit { key := k.data } iv tag = _ := e1
      dsimp only
      rw [e1, Res.ok_bind]
      cases sig with
      | exc e => exact ⟨_, rfl, ⟨s, hg.2, hs⟩, h2, (by rintro s ⟨⟩; exact ⟨_, _, hl, e2⟩)⟩
      | ret e =>
        obtain ⟨e, s', e3, e4⟩ := defaultAad_ok e2
        dsimp only
        dsimp only at e3
        rw [e3]
        exact ⟨_, rfl, ⟨s, hg.2, hs⟩, h2, (by rintro s ⟨⟩; exact ⟨_, _, hl, e4⟩)⟩
  | decUpdate ct =>
    rw [call, decUpdate]
    cases he : c.dec with
    | none => exact ⟨_, rfl, h⟩
    | some s =>
      obtain ⟨key, p, hk, hr⟩ := h.2.2 s he
      obtain ⟨⟨sig, out, st⟩, e1, e2⟩ := Stream.rel_call (g := g) hk hr (.decUpdate ct) trivial
      replace e1 : Stream.decUpdate g s ct = _ := e1
      dsimp only
      rw [e1]
      cases sig <;> exact ⟨_, rfl, h.1, h.2.1, (by rintro s ⟨⟩; exact ⟨_, _, hk, e2⟩)⟩
  | decFinalize =>
    rw [call, decFinalize]
    cases he : c.dec with
    | none => exact ⟨_, rfl, h⟩
    | some s =>
      obtain ⟨key, p, hk, hr⟩ := h.2.2 s he
      obtain ⟨⟨sig, out, st⟩, e1, e2⟩ := Stream.rel_call (g := g) hk hr .decFinalize trivial
      replace e1 : Stream.decFinalize g s = _ := e1
      dsimp only
      rw [e1]
      cases sig with
      | ret e => exact ⟨_, rfl, h.1, h.2.1, (by rintro s ⟨⟩)⟩
      | exc e => exact ⟨_, rfl, h.1, h.2.1, (by rintro s ⟨⟩; exact ⟨_, _, hk, e2⟩)⟩

theorem run_inv (g : Gcm) : ∀ (xs : List Call) {c : StreamCtx}, Inv c → (∀ x ∈ xs, Careful x) →
    ∃ c', run g c xs = .ok c' ∧ Inv c'
  | [], c, h, _ => ⟨c, rfl, h⟩
  | x :: xs, c, h, hx => by
    obtain ⟨c1, h1, h2⟩ := call_inv g h x (hx x (by simp))
    obtain ⟨c2, h3, h4⟩ := run_inv g xs h2 (fun y hy => hx y (by simp [hy]))
    exact ⟨c2, by rw [run, h1]; exact h3, h4⟩

/-- C81, what holds: no history of calls on a new context is undefined, in whatever order and with whatever names,
ciphertexts and tags. Partial: key blobs that load at all contain 32 bytes of key (empty blobs and keys of 16 bytes
do not), and IVs are not empty. -/
theorem C81_histories_defined_partial (g : Gcm) (xs : List Call) (hx : ∀ x ∈ xs, Careful x) :
    ∃ c, run g {} xs = .ok c := by
  obtain ⟨c, h, -⟩ := run_inv g xs (c := {})
    ⟨⟨{}, ⟨fun _ => rfl, fun _ => rfl⟩, fun _ _ h => by cases h⟩, (by rintro s ⟨⟩), (by rintro s ⟨⟩)⟩ hx
  exact ⟨c, h⟩

example : ∀ x ∈ [Call.keygen b!"a" Sym.Ex.key32, .encUpdate [1], .encInit b!"a" Sym.Ex.iv16, .encUpdate [1],
    .delete b!"a", .load b!"b" [1, 2, 3] Sym.Ex.iv16, .decFinalize], Careful x := by
  have h : SymKey.load {} [1, 2, 3] Sym.Ex.iv16 = .throw .outOfRange ∨
      SymKey.load {} [1, 2, 3] Sym.Ex.iv16 = .throw .invalidLength := by decide +kernel
  intro x hx
  simp only [List.mem_cons, List.not_mem_nil, or_false] at hx
  rcases hx with rfl | rfl | rfl | rfl | rfl | rfl | rfl
  · rfl
  · trivial
  · show Sym.Ex.iv16 ≠ []; decide
  · trivial
  · trivial
  · intro e k hl
    rcases h with h | h <;> (rw [h] at hl; cases hl)
  · trivial

end StreamCtx
end Abe
