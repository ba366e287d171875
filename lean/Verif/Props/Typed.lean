import Verif.Proof.Typed
import Verif.Props.SchemeObjects
/-!
# Histories without undefined behaviour (C118)

The programs of C117: one context, any number of ciphertext objects, calls in any order with any identifiers, plaintexts and
random values. `Live.names` and `Live.families` say which type each component has that the schemes use; a null pointer stands
for a component that a failed lookup left behind.
-/
set_option linter.unusedSimpArgs false
set_option linter.unusedSectionVars false
set_option autoImplicit false
namespace Abe
open Scheme Live

section
variable {G1 G2 GT : Type} {q : Nat} [Fact q.Prime]
variable [AddCommGroup G1] [Module (ZMod q) G1] [AddCommGroup G2] [Module (ZMod q) G2] [AddCommGroup GT]
  [Module (ZMod q) GT]
variable {env : Env G1 G2 GT} {cd : Codec G1 G2 GT} {sch : Scheme}

/-- A context without keys and ciphertexts whose components have their types satisfy the invariant. -/
theorem sound_empty (alg : UInt8) (ready : Bool) : Sound env.mktime sch (⟨⟨alg, ready, {}⟩, fun _ => {}⟩ : World G1 G2 GT) where
  keys := ⟨fun id x h => by simp [SMap.find] at h, fun id x h => by simp [SMap.find] at h⟩
  cts := fun _ => typed_nil

/-- **C118 (partial)** After every list of calls on a new context, in any order and with failures of any kind in between, every
call returns or raises: no null pointer is followed, no assertion fails and the process is not ended. The policies come from
the parser, and the keys and ciphertexts that are loaded hold components of the right types. Missing: policies made in other
ways, hostile bytes, exports of objects with a null entry, and builds without assertions. -/
theorem C118_histories_defined_partial (hnd : env.ndebug = false) (hmd : ∀ x, (env.md x).length = 32) (alg : UInt8) (ready : Bool)
    (cs : List (Call q G1 G2)) (hcs : ∀ c ∈ cs, Careful env cd sch c) (call : Call q G1 G2) (hc : Careful env cd sch call)
    (hn : ¬ WritesNull (run env cd sch ⟨⟨alg, ready, {}⟩, fun _ => {}⟩ cs) call) :
    (step env cd sch (run env cd sch ⟨⟨alg, ready, {}⟩, fun _ => {}⟩ cs) call).1.Defined := by
  have hs := valueRun_sound (q := q) (cd := cd) hnd hmd cs _ (sound_empty (G1 := G1) (G2 := G2) (GT := GT) (sch := sch) alg ready) hcs
  have hv := C117_values env cd sch _ cs call hn
  generalize valueRun env cd sch ⟨⟨alg, ready, {}⟩, fun _ => {}⟩ cs = w at hs hv
  generalize run env cd sch ⟨⟨alg, ready, {}⟩, fun _ => {}⟩ cs = w' at hn hv ⊢
  cases call with
  | params mpkID mskID r =>
    obtain ⟨x, e, -⟩ := params_sound (env := env) hs mpkID mskID r
    rw [hv]; simp only [valueStep, e, after]; trivial
  | keygen input keyID mpkID mskID r =>
    obtain ⟨x, e, -⟩ := keygen_sound hnd hs input hc keyID mpkID mskID r
    rw [hv]; simp only [valueStep, e, after]; trivial
  | encrypt j mpkID input plaintext r =>
    obtain ⟨x, e, -⟩ := encrypt_sound hnd hmd hs input hc mpkID plaintext r
    rw [hv]; simp only [valueStep, e, after]; trivial
  | decrypt keyID j =>
    obtain ⟨x, e, -⟩ := decrypt_sound (q := q) hnd hmd hs keyID j
    rw [hv]; simp only [valueStep, e, after]; trivial
  | hashKey mpkID =>
    have := getHashKey_defined (w := w) mpkID
    rw [hv]; simp only [valueStep]
    revert this
    cases Cpa.getHashKey w.ctx mpkID <;> exact fun h => h
  | exportKey id =>
    simp only [step, exportKey]
    cases e : (w'.ctx.ks.getKey id).1 with
    | none => trivial
    | some k =>
      rcases serialize_cases cd k.comps with ⟨h, -⟩ | ⟨-, b, h⟩
      · exact absurd ⟨k, e, h⟩ hn
      · simp only [Key.exportBytes, h]; trivial
  | loadKey id blob rnd kind =>
    rw [hv]; simp only [valueStep, Cpa.loadKey]
    simp only [Careful] at hc
    have hp := parseHeader_defined (G1 := G1) (G2 := G2) (GT := GT) blob rnd
    revert hc hp
    cases (Key.parseHeader blob rnd : Res (Key G1 G2 GT × Bytes)) with
    | ok x =>
      obtain ⟨k, body⟩ := x
      intro hc _
      simp only [Res.ok_bind]
      split
      · trivial
      · have := (hc k body rfl).1
        revert this
        cases k.loadBody env.mktime cd body <;> exact fun h => h
    | _ => exact fun _ h => h
  | deleteKey id => trivial
  | check id => trivial
  | exportCt j =>
    rcases serialize_cases cd (w'.cts j).comps with ⟨h, -⟩ | ⟨-, b, h⟩
    · exact absurd h hn
    · simp only [step, Ciphertext.exportBytes, h]; trivial
  | loadCt j blob =>
    rw [hv]; simp only [valueStep]
    have := hc.1
    revert this
    cases (Ciphertext.load env.mktime cd {} blob : Res (Ciphertext G1 G2 GT)) <;> exact fun h => h

/-- **C118 (partial)** After every such list of calls, generating parameters and keys, encrypting and decrypting return a code:
nothing they raise leaves the context. The limits are those of `C118_histories_defined_partial`. -/
theorem C118_codes_partial (hnd : env.ndebug = false) (hmd : ∀ x, (env.md x).length = 32) (alg : UInt8) (ready : Bool)
    (cs : List (Call q G1 G2)) (hcs : ∀ c ∈ cs, Careful env cd sch c) (call : Call q G1 G2) (hc : Careful env cd sch call)
    (hk : (∃ mpkID mskID r, call = .params mpkID mskID r) ∨ (∃ input keyID mpkID mskID r, call = .keygen input keyID mpkID mskID r) ∨
      (∃ j mpkID input plaintext r, call = .encrypt j mpkID input plaintext r) ∨ ∃ keyID j, call = .decrypt keyID j) :
    ∃ out, (step env cd sch (run env cd sch ⟨⟨alg, ready, {}⟩, fun _ => {}⟩ cs) call).1 = .ok out := by
  have hs := valueRun_sound (q := q) (cd := cd) hnd hmd cs _ (sound_empty (G1 := G1) (G2 := G2) (GT := GT) (sch := sch) alg ready) hcs
  have hn : ¬ WritesNull (run env cd sch (⟨⟨alg, ready, {}⟩, fun _ => {}⟩ : World G1 G2 GT) cs) call := by
    rcases hk with ⟨_, _, _, rfl⟩ | ⟨_, _, _, _, _, rfl⟩ | ⟨_, _, _, _, _, rfl⟩ | ⟨_, _, rfl⟩ <;> exact fun h => h
  rw [C117_values env cd sch _ cs call hn]
  generalize valueRun env cd sch ⟨⟨alg, ready, {}⟩, fun _ => {}⟩ cs = w at hs
  rcases hk with ⟨mpkID, mskID, r, rfl⟩ | ⟨input, keyID, mpkID, mskID, r, rfl⟩ | ⟨j, mpkID, input, plaintext, r, rfl⟩ | ⟨keyID, j, rfl⟩
  · obtain ⟨x, e, -⟩ := params_sound (env := env) hs mpkID mskID r
    exact ⟨_, by simp only [valueStep, e, after]; rfl⟩
  · obtain ⟨x, e, -⟩ := keygen_sound hnd hs input hc keyID mpkID mskID r
    exact ⟨_, by simp only [valueStep, e, after]; rfl⟩
  · obtain ⟨x, e, -⟩ := encrypt_sound hnd hmd hs input hc mpkID plaintext r
    exact ⟨_, by simp only [valueStep, e, after]; rfl⟩
  · obtain ⟨x, e, -⟩ := decrypt_sound (q := q) hnd hmd hs keyID j
    exact ⟨_, by simp only [valueStep, e, after]; rfl⟩

/-! ## Bytes that were exported -/

theorem fits_same {mk : Mktime} {k : Kind} {o o' : Obj G1 G2 GT} (h : SameObj o o') (hf : k.Fits mk o) : k.Fits mk o' := by
  cases h with
  | refl => exact hf
  | int n m h => cases k <;> exact hf.elim
  | attrs l m _ _ _ => cases k <;> first | exact hf.elim | trivial

theorem typed_same {mk : Mktime} {d d' : Container G1 G2 GT} (h : Typed mk sch d) (hk : SMap.keys d' = SMap.keys d) (hs : SMap.Sorted d)
    (hf : ∀ k o, SMap.find k d = some o → ∃ o', SMap.find k d' = some o' ∧ SameObj o o') : Typed mk sch d' := by
  have back : ∀ n o', SMap.find n d' = some o' → ∃ o, SMap.find n d = some o ∧ SameObj o o' := by
    intro n o' e
    have hm : n ∈ SMap.keys d := by rw [← hk]; exact List.mem_map_of_mem (SMap.mem_of_find e)
    obtain ⟨p, hp, he⟩ := List.mem_map.mp hm
    have h1 := SMap.find_of_mem (k := p.1) (v := p.2) hs hp
    rw [he] at h1
    obtain ⟨o2, h2, h3⟩ := hf n p.2 h1
    rw [e] at h2
    cases h2
    exact ⟨_, h1, h3⟩
  constructor
  · intro n k o hn e
    obtain ⟨o1, e1, hs1⟩ := back n o e
    exact fits_same hs1 (h.name n k o1 hn e1)
  · intro b k u o hb e
    obtain ⟨o1, e1, hs1⟩ := back _ o e
    exact fits_same hs1 (h.family b k u o1 hb e1)

/-- **C118 (partial)** The bytes of an exported key whose components have their types can be loaded in every history, by every
context of the scheme, under every identifier: the call is careful. Missing: components that the byte format cannot hold. -/
theorem C118_exported_keys_partial (hcd : CodecOk cd) (key : Key G1 G2 GT) (ht : Typed env.mktime sch key.comps)
    (huid : key.uid.length = uidLen) (hv : key.version = libraryVersion) (hid : key.id.length < 2 ^ 31)
    (ha : key.alg ∈ ([0, 60, 70, 71, 72, 100, 101, 102, 201, 202] : List UInt8))
    (hs : SMap.Sorted key.comps) (h : AllStorable env.mktime cd key.comps) (hne : key.comps ≠ [])
    (hsize : ∀ b, Container.serialize cd key.comps = .ok b → b.length < 2 ^ 32) :
    ∃ out, key.exportBytes cd = .ok out ∧
      ∀ id rnd kind, Careful env cd sch (.loadKey id out rnd kind : Call q G1 G2) := by
  obtain ⟨out, -, -, -, he, -⟩ := C42_key_round_trip_partial hcd key [] huid hv hid ha hs h hne hsize
  refine ⟨out, he, fun id rnd kind k body hp => ?_⟩
  obtain ⟨out', body', k0, k1, he', hp', hl, -, -, -, -, hk, hf⟩ := C42_key_round_trip_partial hcd key rnd huid hv hid ha hs h hne hsize
  rw [he] at he'
  cases he'
  rw [hp] at hp'
  cases hp'
  rw [hl]
  refine ⟨trivial, fun k2 e => ?_⟩
  cases e
  exact typed_same ht hk hs hf

/-- **C118 (partial)** The bytes of an exported ciphertext whose components have their types can be loaded in every history.
Missing: components that the byte format cannot hold. -/
theorem C118_exported_ciphertexts_partial (hcd : CodecOk cd) (ct : Ciphertext G1 G2 GT) (ht : Typed env.mktime sch ct.comps)
    (huid : ct.uid.length = uidLen) (hv : ct.version ≤ libraryVersion)
    (ha : ct.alg ∈ ([0, 60, 70, 71, 72, 100, 101, 102, 201, 202] : List UInt8))
    (hs : SMap.Sorted ct.comps) (h : AllStorable env.mktime cd ct.comps) (hne : ct.comps ≠ [])
    (hsize : ∀ b, Container.serialize cd ct.comps = .ok b → b.length < 2 ^ 32) :
    ∃ out, ct.exportBytes cd = .ok out ∧ ∀ j, Careful env cd sch (.loadCt j out : Call q G1 G2) := by
  obtain ⟨out, ct', he, hl, -, -, -, hk, hf⟩ := C41_ciphertext_round_trip_partial hcd ct huid hv ha hs h hne hsize
  refine ⟨out, he, fun j => ?_⟩
  simp only [Careful, hl]
  refine ⟨trivial, fun ct2 e => ?_⟩
  cases e
  exact typed_same ht hk hs hf

/-! ## Hostile bytes -/

/-- The name of the component that encryption multiplies. -/
def blindName : Scheme → Bytes
  | .cp => b!"A"
  | .kp => b!"Y"

/-- Public parameters in which byte strings stand where group elements are expected. -/
def hostileComps (sch : Scheme) : Container G1 G2 GT := [(blindName sch, .bytes [1]), (b!"k", .bytes [1])]

theorem hostile_size (b : Bytes) (h : Container.serialize cd (hostileComps sch : Container G1 G2 GT) = .ok b) : b.length < 2 ^ 32 := by
  cases sch
  · have : Container.serialize cd (hostileComps .cp : Container G1 G2 GT) =
        .ok [161, 1, 65, 161, 6, 29, 0, 0, 0, 1, 1, 161, 1, 107, 161, 6, 29, 0, 0, 0, 1, 1] := rfl
    rw [this] at h
    cases h
    decide
  · have : Container.serialize cd (hostileComps .kp : Container G1 G2 GT) =
        .ok [161, 1, 89, 161, 6, 29, 0, 0, 0, 1, 1, 161, 1, 107, 161, 6, 29, 0, 0, 0, 1, 1] := rfl
    rw [this] at h
    cases h
    decide

/-- The code violates C118: there are bytes that load as public parameters without an error in every context with a known
scheme identifier, and every later encryption under them follows a null pointer, because a component has another type
than the code casts it to (include/abe/zcontainer.h:69-76). -/
theorem C118_hostile_params_violated (hcd : CodecOk cd) (w : World G1 G2 GT)
    (ha : w.ctx.alg ∈ ([0, 60, 70, 71, 72, 100, 101, 102, 201, 202] : List UInt8)) (id : Bytes) :
    ∃ blob, ∀ rnd, (step env cd sch w (.loadKey id blob rnd .pub : Call q G1 G2)).1 = .ok (.code none) ∧
      ∀ (j : Nat) (input : FInput) (plaintext : Bytes) (r : Rand q), encInput sch input = true →
        (step env cd sch (step env cd sch w (.loadKey id blob rnd .pub : Call q G1 G2)).2
          (.encrypt j id input plaintext r : Call q G1 G2)).1 = .ub := by
  let key : Key G1 G2 GT := { alg := w.ctx.alg, uid := List.replicate 16 7, id := [], comps := hostileComps sch }
  have rt := fun rnd => C42_key_round_trip_partial (mk := env.mktime) hcd key rnd (by simp [key, uidLen]) rfl (by simp [key]) ha
    (by cases sch <;> simp [key, hostileComps, blindName, SMap.Sorted, blt])
    (by
      intro p hp
      simp only [key, hostileComps, List.mem_cons, List.not_mem_nil, or_false] at hp
      rcases hp with rfl | rfl
      · exact ⟨by cases sch <;> simp [blindName], by cases sch <;> simp [blindName], .bytes _ (by decide)⟩
      · exact ⟨by simp, by simp, .bytes _ (by decide)⟩)
    (by simp [key, hostileComps]) hostile_size
  obtain ⟨out, -, -, -, he, -⟩ := rt []
  refine ⟨out, fun rnd => ?_⟩
  obtain ⟨out', body, k0, k1, he', hp, hl, -, hal, -, -, -, hf⟩ := rt rnd
  rw [he] at he'
  cases he'
  have hal0 : k0.alg = w.ctx.alg := by
    have := hl
    simp only [Key.loadBody, Res.bind_eq_ok] at this
    obtain ⟨c, -, h⟩ := this
    cases h
    exact hal
  have hstep : step env cd sch w (.loadKey id out rnd .pub : Call q G1 G2) =
      (.ok (.code none), { w with ctx := { w.ctx with ready := true, ks := w.ctx.ks.addKey id k1 .pub } }) := by
    simp only [step, Live.loadKey, hp, hal0, ne_eq, not_true_eq_false, if_false, hl, mapRes]
  rw [hstep]
  refine ⟨rfl, fun j input plaintext r hi => ?_⟩
  have find1 : ∀ n, SMap.find n (hostileComps sch : Container G1 G2 GT) = some (.bytes [1]) → SMap.find n k1.comps = some (.bytes [1]) := by
    intro n hn
    obtain ⟨o', h1, h2⟩ := hf n _ hn
    cases h2
    exact h1
  have fk : SMap.find b!"k" k1.comps = some (.bytes [1]) := find1 _ (by cases sch <;> rfl)
  have fA : SMap.find (blindName sch) k1.comps = some (.bytes [1]) := find1 _ (by cases sch <;> rfl)
  have hpk : ((w.ctx.ks.addKey id k1 .pub).getPublicKey id).1 = some k1 :=
    congrArg Prod.fst (getPublicKey_of (key := k1) (by simp only [KeyStore.addKey, SMap.find_insert, if_true]))
  have hb : (encBody env sch { w.ctx with ready := true, ks := w.ctx.ks.addKey id k1 .pub } input r {} (k1.comps, [])).1 = .ub := by
    cases sch <;> cases input <;> simp only [encInput, Bool.false_eq_true] at hi
    · simp only [blindName] at fA
      simp only [encBody, Live.cpEncBody, bind, Mut.bind, fst, Container.getComponent, fk, lift, usePairing, if_true, fA, asGT, deref]
    · simp only [blindName] at fA
      simp only [encBody, Live.kpEncBody, bind, Mut.bind, fst, Container.getComponent, fk, lift, usePairing, if_true, fA, asGT, deref]
  simp only [step, Live.encrypt, hi, Bool.true_eq_false, if_false, hpk, hb, caught]

/-- The code violates C118: there are bytes that load as a ciphertext without an error, and every decryption of it with a
key of the ciphertext-policy scheme follows a null pointer. Its policy text is not a policy, and the result of parsing it is used
without a test (zcontextcpwaters.cpp:325-332). -/
theorem C118_hostile_ciphertext_violated (hcd : CodecOk cd) :
    ∃ blob, ∀ (w : World G1 G2 GT) (j : Nat),
      (step env cd .cp w (.loadCt j blob : Call q G1 G2)).1 = .ok (.code none) ∧
      ∀ (id : Bytes) (key : Key G1 G2 GT) (l : AttrList), SMap.find id w.ctx.ks.sec = some (some key) →
        SMap.find b!"input" key.comps = some (.attrs l) →
        (step env cd .cp (step env cd .cp w (.loadCt j blob : Call q G1 G2)).2 (.decrypt id j : Call q G1 G2)).1 = .ub := by
  let ct : Ciphertext G1 G2 GT := { alg := 101, comps := [(b!"policy", .bytes [])] }
  obtain ⟨out, ct', he, hl, -, -, -, -, hf⟩ := C41_ciphertext_round_trip_partial (mk := env.mktime) hcd ct (by simp [ct, BS.fillBuffer, uidLen]) (by simp [ct])
    (by simp [ct])
    (by simp [ct, SMap.Sorted])
    (by
      intro p hp
      simp only [ct, List.mem_cons, List.not_mem_nil, or_false] at hp
      subst hp
      exact ⟨by simp, by simp, .bytes _ (by decide)⟩)
    (by simp [ct]) (by
      intro b hb
      have : Container.serialize cd ct.comps = .ok _ := rfl
      rw [this] at hb
      cases hb
      decide)
  refine ⟨out, fun w j => ?_⟩
  have hstep : step env cd .cp w (.loadCt j out : Call q G1 G2) = (.ok (.code none), { w with cts := setCt w.cts j ct' }) := by
    simp only [step, hl]
  rw [hstep]
  refine ⟨rfl, fun id key l hs hi => ?_⟩
  have fp : SMap.find b!"policy" ct'.comps = some (.bytes []) := by
    obtain ⟨o', h1, h2⟩ := hf b!"policy" (.bytes []) rfl
    cases h2
    exact h1
  have hb : (plainBody q env .cp w.ctx (key.comps, ct'.comps)).1 = .ub := by
    have hp : createPolicyTree env.mktime [] = .ok none := rfl
    simp only [plainBody, Live.cpDecBody, bind, Mut.bind, fst, snd, Container.getComponent, hi, fp, lift, asBytes, notNull, hp, castAttrs,
      recoverCoefficients]
  simp only [step, Live.decrypt, setCt, if_true, getSecretKey_of hs, hb, caught]
  rfl

end

/-! ### Concrete cases -/

namespace TypedEx
open Cpa.WireEx LiveEx

theorem accepted3 : ∃ p, createPolicyTree env.mktime b!"a and (b or c)" = .ok (some p) := by
  have h : (match createPolicyTree env.mktime b!"a and (b or c)" with | .ok (some _) => true | _ => false) = true := by decide +kernel
  revert h
  cases createPolicyTree env.mktime b!"a and (b or c)" with
  | ok o => cases o with
    | none => simp
    | some p => exact fun _ => ⟨p, rfl⟩
  | _ => simp

/-- The policy `a and (b or c)`. -/
noncomputable def pol : Policy := accepted3.choose

/-- Parameters, two failing calls, a key, a ciphertext and a decryption. -/
noncomputable def history : List (Call 5 (ZMod 5) (ZMod 5)) :=
  [.keygen (.policy pol) b!"dk" b!"mpk" b!"msk" rnd, .params b!"mpk" b!"msk" pr, .decrypt b!"msk" 0,
   .keygen (.attrs { attrs := [b!"a", b!"c"] }) b!"dk" b!"mpk" b!"msk" rnd, .encrypt 0 b!"mpk" (.policy pol) b!"hello" rnd,
   .decrypt b!"dk" 0]

theorem careful : ∀ c ∈ history, Careful env codec .cp c := by
  have hp : Accepted env.mktime pol := ⟨_, accepted3.choose_spec⟩
  intro c hc
  simp only [history, List.mem_cons, List.not_mem_nil, or_false] at hc
  rcases hc with rfl | rfl | rfl | rfl | rfl | rfl <;> first | exact hp | trivial

/-- The hypotheses of `C118_histories_defined_partial` hold for this history. -/
example : env.ndebug = false ∧ (∀ x, (env.md x).length = 32) ∧ (∀ c ∈ history, Careful env codec .cp c) ∧
    ∀ (w : World (ZMod 5) (ZMod 5) (ZMod 5)), ¬ WritesNull w (.decrypt b!"dk" 0 : Call 5 (ZMod 5) (ZMod 5)) :=
  ⟨rfl, fun x => Toy.digest _ _ x, careful, fun _ h => h⟩

example (j : Nat) : ∃ out, (step (q := 5) env codec .cp (run (q := 5) env codec .cp ⟨⟨101, false, {}⟩, fun _ => {}⟩ history)
    (.decrypt b!"dk" j : Call 5 (ZMod 5) (ZMod 5))).1 = .ok out := by
  have h := C118_codes_partial (q := 5) (env := env) (cd := codec) (sch := .cp) rfl (fun x => Toy.digest _ _ x) 101 false history careful
    (.decrypt b!"dk" j) trivial (.inr (.inr (.inr ⟨b!"dk", j, rfl⟩)))
  exact h

example : ∃ blob, ∀ rnd, (step (q := 5) env codec .kp w0 (.loadKey b!"mpk" blob rnd .pub : Call 5 (ZMod 5) (ZMod 5))).1 = .ok (.code none) :=
  let ⟨b, h⟩ := C118_hostile_params_violated (q := 5) (env := env) (sch := .kp) codec_ok w0 (by decide) b!"mpk"
  ⟨b, fun rnd => (h rnd).1⟩

example : SMap.find b!"dk" w1.ctx.ks.sec = some (some dk1) ∧ SMap.find b!"input" dk1.comps = some (.attrs { attrs := [b!"a", b!"c"] }) :=
  ⟨by rfl, by rfl⟩

end TypedEx

end Abe
