import Verif.Model.KeyRing
import Verif.Props.Keystore
import Verif.Props.StreamCtx
/-!
# C139: symmetric keys in a keystore that is shared with keys of the schemes
-/
set_option linter.unusedSimpArgs false
set_option linter.unusedSectionVars false
set_option autoImplicit false
namespace Abe
namespace KeyRing
variable {G1 G2 GT : Type}

/-- Specification: the secret key that belongs to `id` after a history, latest call first: the last one put there
by a call that succeeded, unless `id` was deleted since. -/
def latest (id : Bytes) : List (Call G1 G2 GT) → Option (Stored G1 G2 GT)
  | [] => none
  | .store x (some k) :: cs => if x = id then some (.sym k) else latest id cs
  | .load x blob rnd :: cs =>
    match ({} : SymKey).load blob rnd with
    | .ok (_, k) => if x = id then some (.sym k) else latest id cs
    | _ => latest id cs
  | .delete x :: cs => if x = id then none else latest id cs
  | .add x k .sec :: cs => if x = id then some (.abe k) else latest id cs
  | _ :: cs => latest id cs

/-- Specification: the public key that belongs to `id`. -/
def latestPub (id : Bytes) : List (Call G1 G2 GT) → Option (Stored G1 G2 GT)
  | [] => none
  | .delete x :: cs => if x = id then none else latestPub id cs
  | .add x k .pub :: cs => if x = id then some (.abe k) else latestPub id cs
  | _ :: cs => latestPub id cs

/-- The two maps of a history. -/
def specOf (cs : List (Call G1 G2 GT)) : KeyStore.Spec (Stored G1 G2 GT) :=
  { pub := fun x => latestPub x cs, sec := fun x => latest x cs }

theorem rep_add {ks : Ring G1 G2 GT} {s : KeyStore.Spec (Stored G1 G2 GT)} (h : KeyStore.Rep ks s) (id : Bytes) (k : Stored G1 G2 GT) :
    KeyStore.Rep (ks.addKey id k .sec) { s with sec := fun x => if id = x then some k else s.sec x } ∧
    KeyStore.Rep (ks.addKey id k .pub) { s with pub := fun x => if id = x then some k else s.pub x } := by
  refine ⟨⟨h.1, fun x => ?_⟩, ⟨fun x => ?_, h.2⟩⟩ <;>
  · simp only [KeyStore.addKey, SMap.find_insert, eq_comm (a := id)]
    split
    · rfl
    · first | exact h.1 x | exact h.2 x

theorem call_rep (cd : Codec G1 G2 GT) {ks ks' : Ring G1 G2 GT} {cs : List (Call G1 G2 GT)} (h : KeyStore.Rep ks (specOf cs))
    (c : Call G1 G2 GT) (hc : call cd ks c = .ok ks') : KeyStore.Rep ks' (specOf (c :: cs)) := by
  cases c with
  | store id k =>
    cases k with
    | none => cases hc; exact h
    | some k => cases hc; exact (rep_add h id (.sym k)).1
  | load id blob rnd =>
    obtain ⟨⟨e, k'⟩, h1, h2⟩ := (Res.bind_eq_ok _ _ _).mp hc
    cases h2
    have : ∀ r : Res (Option Err × SymKey), r = ({} : SymKey).load blob rnd → KeyStore.Rep k' (specOf (.load id blob rnd :: cs)) := by
      intro r hr
      have hs : (specOf (.load id blob rnd :: cs)).pub = (specOf cs).pub := rfl
      unfold load at h1
      unfold specOf
      simp only [latest]
      rw [← hr] at h1 ⊢
      cases r with
      | ok a => cases h1; exact (rep_add h id (.sym a.2)).1
      | throw e => cases e <;> first | cases h1; exact h | cases h1
      | ub => cases h1
      | abort => cases h1
    exact this _ rfl
  | get id =>
    obtain ⟨⟨e, k'⟩, h1, h2⟩ := (Res.bind_eq_ok _ _ _).mp hc
    cases h2
    have := (KeyStore.getSecretKey_spec h id).2
    unfold get at h1
    dsimp only at h1
    split at h1 <;> cases h1 <;> exact this
  | delete id =>
    cases hc
    have := (KeyStore.deleteKey_spec h id).2
    have e : specOf (.delete id :: cs) = { pub := fun x => if x = id then none else (specOf cs).pub x, sec := fun x => if x = id then none else (specOf cs).sec x } := by
      unfold specOf
      simp only [latest, latestPub, eq_comm (a := id)]
    rw [e]; exact this
  | exportKey id =>
    obtain ⟨⟨e, k'⟩, h1, h2⟩ := (Res.bind_eq_ok _ _ _).mp hc
    cases h2
    have := (KeyStore.getKey_spec h id).2
    unfold exportKey at h1
    dsimp only at h1
    split at h1
    · cases h1; exact this
    · obtain ⟨res, -, h3⟩ := (Res.bind_eq_ok _ _ _).mp h1
      cases h3; exact this
  | add id k kind =>
    cases hc
    cases kind with
    | pub => exact (rep_add h id (.abe k)).2
    | sec => exact (rep_add h id (.abe k)).1
    | other => exact h

theorem calls_rep (cd : Codec G1 G2 GT) : ∀ (xs : List (Call G1 G2 GT)) {ks ks' : Ring G1 G2 GT} {cs : List (Call G1 G2 GT)},
    KeyStore.Rep ks (specOf cs) → calls cd ks xs = .ok ks' → KeyStore.Rep ks' (specOf (xs.reverse ++ cs))
  | [], _, _, _, h, hc => by cases hc; exact h
  | x :: xs, ks, ks', cs, h, hc => by
    obtain ⟨k1, h1, h2⟩ := (Res.bind_eq_ok _ _ _).mp hc
    rw [List.reverse_cons, List.append_assoc]
    exact calls_rep cd xs (call_rep cd h x h1) h2

theorem empty_rep : KeyStore.Rep ({} : Ring G1 G2 GT) (specOf []) := ⟨fun _ => rfl, fun _ => rfl⟩

/-- After every history, `OpenABE_getSymmetricKey` returns the symmetric key that was last stored or loaded under the
id and not deleted since, null if there is none; and it is undefined exactly if a key of a scheme is there. -/
theorem C139_get_exact (cd : Codec G1 G2 GT) (xs : List (Call G1 G2 GT)) (ks : Ring G1 G2 GT) (h : calls cd {} xs = .ok ks) (id : Bytes) :
    (∀ k, latest id xs.reverse = some (.sym k) ↔ ∃ ks', get ks id = .ok (some k, ks')) ∧
    (latest id xs.reverse = none ↔ ∃ ks', get ks id = .ok (none, ks')) ∧
    ((∃ k, latest id xs.reverse = some (.abe k)) ↔ get ks id = .ub) := by
  have hr := calls_rep cd xs empty_rep h
  rw [List.append_nil] at hr
  have hg : (ks.getSecretKey id).1 = latest id xs.reverse := (KeyStore.getSecretKey_spec hr id).1
  unfold get
  dsimp only
  rw [hg]
  cases latest id xs.reverse with
  | none => simp
  | some s => cases s <;> simp

theorem latest_sec {id : Bytes} {k : Key G1 G2 GT} : ∀ {cs : List (Call G1 G2 GT)},
    latest id cs = some (.abe k) → Call.add id k .sec ∈ cs
  | [], h => by cases h
  | c :: cs, h => by
    have next : latest id cs = some (.abe k) → Call.add id k .sec ∈ c :: cs := fun h => List.mem_cons_of_mem _ (latest_sec h)
    cases c with
    | store x o =>
      cases o with
      | none => exact next h
      | some y =>
        simp only [latest] at h
        split at h
        · cases h
        · exact next h
    | load x blob rnd =>
      simp only [latest] at h
      split at h
      · split at h
        · cases h
        · exact next h
      · exact next h
    | get x => exact next h
    | exportKey x => exact next h
    | delete x =>
      simp only [latest] at h
      split at h
      · cases h
      · exact next h
    | add x y kind =>
      cases kind with
      | other => exact next h
      | pub => exact next h
      | sec =>
        simp only [latest] at h
        split at h
        · rename_i e; cases h; subst e; simp
        · exact next h

theorem latestPub_pub {id : Bytes} {k : Key G1 G2 GT} : ∀ {cs : List (Call G1 G2 GT)},
    latestPub id cs = some (.abe k) → Call.add id k .pub ∈ cs
  | [], h => by cases h
  | c :: cs, h => by
    have next : latestPub id cs = some (.abe k) → Call.add id k .pub ∈ c :: cs := fun h => List.mem_cons_of_mem _ (latestPub_pub h)
    cases c with
    | store x o => exact next h
    | load x blob rnd => exact next h
    | get x => exact next h
    | exportKey x => exact next h
    | delete x =>
      simp only [latestPub] at h
      split at h
      · cases h
      · exact next h
    | add x y kind =>
      cases kind with
      | other => exact next h
      | sec => exact next h
      | pub =>
        simp only [latestPub] at h
        split at h
        · rename_i e; cases h; subst e; simp
        · exact next h

theorem caught_ub {α : Type} {x : Res α} (h : Scheme.caught x = .ub) : x = .ub := by
  cases x with
  | throw e => cases e <;> cases h
  | ok a => cases h
  | ub => rfl
  | abort => cases h

/-- A single call is undefined exactly for lookups of keys of schemes. -/
theorem call_ub (cd : Codec G1 G2 GT) {ks : Ring G1 G2 GT} {cs : List (Call G1 G2 GT)} (h : KeyStore.Rep ks (specOf cs))
    (hcd : ∀ id k kind, Call.add id k kind ∈ cs → Key.exportBytes cd k ≠ .ub) (c : Call G1 G2 GT) :
    call cd ks c = .ub ↔ ∃ id k, c = .get id ∧ latest id cs = some (.abe k) := by
  constructor
  · intro hc
    cases c with
    | store id k => cases hc
    | delete id => cases hc
    | add id k kind => cases hc
    | load id blob rnd =>
      exfalso
      have hd := StreamCtx.load_defined {} blob rnd
      simp only [call, load] at hc
      cases hl : ({} : SymKey).load blob rnd with
      | ok r => rw [hl] at hc; cases hc
      | throw e => rw [hl] at hc; cases e <;> cases hc
      | ub => rw [hl] at hd; exact hd
      | abort => rw [hl] at hd; exact hd
    | get id =>
      have hg : (ks.getSecretKey id).1 = latest id cs := (KeyStore.getSecretKey_spec h id).1
      simp only [call, get, hg] at hc
      cases hl : latest id cs with
      | none => rw [hl] at hc; cases hc
      | some s =>
        cases s with
        | abe k => exact ⟨id, k, rfl, hl⟩
        | sym k => rw [hl] at hc; cases hc
    | exportKey id =>
      exfalso
      have hg : (ks.getKey id).1 = ((latestPub id cs).orElse fun _ => latest id cs) := (KeyStore.getKey_spec h id).1
      simp only [call, exportKey] at hc
      cases hk : (ks.getKey id).1 with
      | none => rw [hk] at hc; cases hc
      | some s =>
        rw [hk] at hc hg
        dsimp only at hc
        have hb : bytesOf cd s = .ub := by
          cases hcc : Scheme.caught (bytesOf cd s) with
          | ub => exact caught_ub hcc
          | ok r => rw [hcc] at hc; cases hc
          | throw e => rw [hcc] at hc; cases hc
          | abort => rw [hcc] at hc; cases hc
        cases s with
        | sym k => cases hb
        | abe k =>
          cases hp : latestPub id cs with
          | none => rw [hp] at hg; exact hcd _ _ _ (latest_sec (hg.symm : latest id cs = _)) hb
          | some p =>
            rw [hp] at hg
            obtain rfl : p = .abe k := (Option.some.inj hg).symm
            exact hcd _ _ _ (latestPub_pub hp) hb
  · rintro ⟨id, k, rfl, hl⟩
    have hg : (ks.getSecretKey id).1 = latest id cs := (KeyStore.getSecretKey_spec h id).1
    simp only [call, get, hg, hl]
    rfl

theorem calls_ub (cd : Codec G1 G2 GT) : ∀ (xs : List (Call G1 G2 GT)) {ks : Ring G1 G2 GT} {cs : List (Call G1 G2 GT)},
    KeyStore.Rep ks (specOf cs) → (∀ id k kind, Call.add id k kind ∈ xs ++ cs → Key.exportBytes cd k ≠ .ub) →
    (calls cd ks xs = .ub ↔ ∃ ys id zs ks' k, xs = ys ++ .get id :: zs ∧ calls cd ks ys = .ok ks' ∧
      latest id (ys.reverse ++ cs) = some (.abe k))
  | [], _, _, _, _ => ⟨fun h => (by cases h), fun ⟨ys, id, zs, _, _, h, _⟩ => (by simp at h)⟩
  | x :: xs, ks, cs, h, hcd => by
    have hcall := call_ub cd h (fun id k kind hm => hcd id k kind (by simp [hm])) x
    constructor
    · intro hc
      cases hx : call cd ks x with
      | ub =>
        obtain ⟨id, k, rfl, hl⟩ := hcall.mp hx
        exact ⟨[], id, xs, ks, k, rfl, rfl, hl⟩
      | throw e => rw [calls, hx] at hc; cases hc
      | abort => rw [calls, hx] at hc; cases hc
      | ok k1 =>
        rw [calls, hx, Res.ok_bind] at hc
        obtain ⟨ys, id, zs, ks', k, rfl, h2, h3⟩ := (calls_ub cd xs (call_rep cd h x hx)
          (fun id k kind hm => hcd id k kind (by simp only [List.mem_append, List.mem_cons] at hm ⊢; tauto))).mp hc
        refine ⟨x :: ys, id, zs, ks', k, rfl, by rw [calls, hx, Res.ok_bind, h2], ?_⟩
        rw [List.reverse_cons, List.append_assoc]; exact h3
    · rintro ⟨ys, id, zs, ks', k, e, h2, h3⟩
      cases ys with
      | nil =>
        rw [List.nil_append, List.cons.injEq] at e
        obtain ⟨rfl, rfl⟩ := e
        rw [calls, hcall.mpr ⟨id, k, rfl, h3⟩]; rfl
      | cons y ys =>
        rw [List.cons_append, List.cons.injEq] at e
        obtain ⟨rfl, rfl⟩ := e
        obtain ⟨k1, h4, h5⟩ := (Res.bind_eq_ok _ _ _).mp h2
        rw [calls, h4, Res.ok_bind]
        rw [List.reverse_cons, List.append_assoc] at h3
        exact (calls_ub cd _ (call_rep cd h x h4)
          (fun id k kind hm => hcd id k kind (by simp only [List.mem_append, List.mem_cons] at hm ⊢; tauto))).mpr
          ⟨ys, id, zs, ks', k, rfl, h5, h3⟩

/-- Exactly which histories are undefined: those in which a symmetric key is asked for under an id whose secret key
is one of a scheme. (For scheme keys whose export is defined.) -/
theorem C139_undefined_exact (cd : Codec G1 G2 GT) (xs : List (Call G1 G2 GT))
    (hcd : ∀ id k kind, Call.add id k kind ∈ xs → Key.exportBytes cd k ≠ .ub) :
    calls cd {} xs = .ub ↔ ∃ ys id zs ks k, xs = ys ++ .get id :: zs ∧ calls cd {} ys = .ok ks ∧
      latest id ys.reverse = some (.abe k) := by
  have := calls_ub cd xs empty_rep (by simpa using hcd)
  simpa only [List.append_nil] using this

/-- Histories without secret keys of schemes are defined. Missing: keystores with secret keys of both kinds, where
`C139_kind_violated` applies. -/
theorem C139_defined_partial (cd : Codec G1 G2 GT) (xs : List (Call G1 G2 GT)) (hx : ∀ id k, Call.add id k .sec ∉ xs)
    (hcd : ∀ id k kind, Call.add id k kind ∈ xs → Key.exportBytes cd k ≠ .ub) : calls cd {} xs ≠ .ub := by
  intro h
  obtain ⟨ys, id, zs, ks, k, rfl, h2, h3⟩ := (C139_undefined_exact cd xs hcd).mp h
  exact hx id k (List.mem_append.mpr (.inl (List.mem_reverse.mp (latest_sec h3))))

/-- A key of 16 or 32 bytes exported by the key object itself loads, and is what is found afterwards. Missing: keys
exported by the keystore (`C139_export_violated`). -/
theorem C139_load_partial (ks : Ring G1 G2 GT) (data id rnd : Bytes) (hd : data.length = 16 ∨ data.length = 32) :
    ∃ ks' ks'', load ks id ({ data := data } : SymKey).exportBytes rnd = .ok (none, ks') ∧
      get ks' id = .ok (some { data := data }, ks'') := by
  have h := Sym.C56_plain_round_trip_partial { data := data } {} rnd ⟨rfl, rfl, rfl, rfl⟩ hd
  refine ⟨ks.addKey id (.sym { data := data }) .sec, (KeyStore.getSecretKey (ks.addKey id (.sym { data := data }) .sec) id).2, ?_, ?_⟩
  · rw [load, h]
  · have : (KeyStore.getSecretKey (ks.addKey id (.sym { data := data }) .sec) id).1 = some (.sym { data := data }) := by
      show (KeyStore.touch (SMap.insert id (some _) ks.sec) id).1 = _
      rw [(KeyStore.touch_spec _ _).1, SMap.find_insert, if_pos rfl]
      rfl
    simp only [get, this]

/-! ### Violations -/

/-- Asking for a symmetric key under the id of a secret key of a scheme is undefined instead of giving null. -/
theorem C139_kind_violated (ks : Ring G1 G2 GT) (id : Bytes) (k : Key G1 G2 GT) : get (ks.addKey id (.abe k) .sec) id = .ub := by
  have : (KeyStore.getSecretKey (ks.addKey id (.abe k) .sec) id).1 = some (.abe k) := by
    show (KeyStore.touch (SMap.insert id (some _) ks.sec) id).1 = _
    rw [(KeyStore.touch_spec _ _).1, SMap.find_insert, if_pos rfl]
    rfl
  simp only [get, this]

/-- `OpenABE_deleteSymmetricKey` never reports an error, so not for ids without a symmetric key either, and it removes
the public parameters and the secret keys of schemes that have the id. -/
theorem C139_delete_violated (cd : Codec G1 G2 GT) (xs : List (Call G1 G2 GT)) (ks : Ring G1 G2 GT) (h : calls cd {} xs = .ok ks) (id : Bytes) :
    (delete ks id).1 = none ∧ ((delete ks id).2.getPublicKey id).1 = none ∧ ((delete ks id).2.getSecretKey id).1 = none := by
  have hr := calls_rep cd xs empty_rep h
  obtain ⟨h1, h2⟩ := KeyStore.deleteKey_spec hr id
  refine ⟨by simp [delete, h1], ?_, ?_⟩
  · rw [show (delete ks id).2 = (ks.deleteKey id).2 from rfl, (KeyStore.getPublicKey_spec h2 id).1]; simp
  · rw [show (delete ks id).2 = (ks.deleteKey id).2 from rfl, (KeyStore.getSecretKey_spec h2 id).1]; simp

/-- Exporting a symmetric key gives the public key if one has the id, and otherwise bytes that do not depend on the
key data; they are refused when loaded. -/
theorem C139_export_violated (cd : Codec G1 G2 GT) (ks : Ring G1 G2 GT) (id data : Bytes) :
    (∀ p b, Key.exportBytes cd p = .ok b → ∃ ks', exportKey cd ((store (ks.addKey id (.abe p) .pub) id (some { data := data })).2) id = .ok (.ok b, ks')) ∧
    ((ks.getPublicKey id).1 = none → ∃ ks', exportKey cd ((store ks id (some { data := data })).2) id =
        .ok (.ok [0, 0, 0, 2, libraryVersion, 0, 0, 0, 0, 0], ks')) ∧
    ∀ (ks' : Ring G1 G2 GT) (id' rnd : Bytes), load ks' id' [0, 0, 0, 2, libraryVersion, 0, 0, 0, 0, 0] rnd = .ok (some .invalidLength, ks') := by
  refine ⟨fun p b hb => ?_, fun hp => ?_, fun _ _ _ => rfl⟩
  · have h1 : (KeyStore.getKey ((store (ks.addKey id (.abe p) .pub) id (some { data := data })).2) id).1 = some (.abe p) := by
      have hq : (KeyStore.getPublicKey ((store (ks.addKey id (.abe p) .pub) id (some { data := data })).2) id).1 = some (.abe p) := by
        show (KeyStore.touch (SMap.insert id (some _) ks.pub) id).1 = _
        rw [(KeyStore.touch_spec _ _).1, SMap.find_insert, if_pos rfl]
        rfl
      rw [KeyStore.getKey, hq]
    simp only [exportKey, h1, bytesOf, hb, Scheme.caught, Res.ok_bind]
    exact ⟨_, rfl⟩
  · have h1 : (KeyStore.getKey ((store ks id (some { data := data })).2) id).1 = some (.sym { data := data }) := by
      have hq : (KeyStore.getPublicKey ((store ks id (some { data := data })).2) id).1 = none := hp
      rw [KeyStore.getKey, hq]
      show (KeyStore.touch (SMap.insert id (some _) ks.sec) id).1 = _
      rw [(KeyStore.touch_spec _ _).1, SMap.find_insert, if_pos rfl]
      rfl
    have h2 : ({ data := data } : SymKey).exportBase = [0, 0, 0, 2, libraryVersion, 0, 0, 0, 0, 0] := by
      show ({} : SymKey).exportBase = _
      decide +kernel
    simp only [exportKey, h1, bytesOf, h2, Scheme.caught, Res.ok_bind]
    exact ⟨_, rfl⟩

/-- Loading an empty blob reports success and replaces the key of that id by one without data. -/
theorem C139_empty_blob_violated (ks : Ring G1 G2 GT) (id rnd : Bytes) :
    ∃ ks' ks'', load ks id [] rnd = .ok (none, ks') ∧ get ks' id = .ok (some {}, ks'') := by
  refine ⟨ks.addKey id (.sym {}) .sec, (KeyStore.getSecretKey (ks.addKey id (.sym {}) .sec) id).2, rfl, ?_⟩
  have : (KeyStore.getSecretKey (ks.addKey id (.sym {}) .sec) id).1 = some (.sym {}) := by
    show (KeyStore.touch (SMap.insert id (some _) ks.sec) id).1 = _
    rw [(KeyStore.touch_spec _ _).1, SMap.find_insert, if_pos rfl]
    rfl
  simp only [get, this]

/-! ### The hypotheses can be met -/

/-- A key without components, and a history with keys of both kinds that is defined. -/
example (cd : Codec Unit Unit Unit) (k : Key Unit Unit Unit) : ∃ ks ks',
    calls cd {} [.add b!"m" k .sec, .store b!"s" (some {}), .get b!"s", .delete b!"m", .get b!"m"] = .ok ks ∧
    get ks b!"s" = .ok (some {}, ks') ∧
    latest b!"s" [.get b!"m", .delete b!"m", .get b!"s", .store b!"s" (some {}), Call.add b!"m" k .sec] = some (.sym {}) := by
  refine ⟨_, _, rfl, rfl, rfl⟩

example (cd : Codec Unit Unit Unit) (k : Key Unit Unit Unit) :
    calls cd {} [.add b!"m" k .sec, .get b!"m"] = .ub ∧ latest b!"m" [Call.add b!"m" k .sec] = some (.abe k) := ⟨rfl, rfl⟩

end KeyRing
end Abe
