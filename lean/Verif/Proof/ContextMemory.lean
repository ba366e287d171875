import Verif.Spec.ContextMemory
import Verif.Proof.MemoryScheme
/-! Two ways to run the calls of a context: on the heap, and on values with what is left behind. -/
set_option linter.unusedSimpArgs false
set_option linter.unusedSectionVars false
set_option autoImplicit false
namespace Abe
namespace Cm
open Live (Mut lift asZP asG1 asG2 asGT asBytes)
open Scheme
open Mem (Store Cell Heap Ptrs SimR Agree WRel Values at_)
variable {G1 G2 GT : Type}

/-! ## Any two arenas that agree -/

section Sim
variable {σ τ : Type} {R : σ → τ → Prop}

/-- Two arenas do the same. -/
structure Same (R : σ → τ → Prop) (A : Arena G1 G2 GT σ) (B : Arena G1 G2 GT τ) : Prop where
  new : SimR R A.new B.new
  get : ∀ i n, SimR R (A.get i n) (B.get i n)
  set : ∀ i n o, SimR R (A.set i n o) (B.set i n o)
  buf : ∀ b, SimR R (A.buf b) (B.buf b)
  write : ∀ i, SimR R (A.write i) (B.write i)
  drop : ∀ i, SimR R (A.drop i) (B.drop i)

theorem Same.store {A : Arena G1 G2 GT σ} {B : Arena G1 G2 GT τ} (h : Same R A B) (k : Nat) :
    Agree R (A.store k) (B.store k) := ⟨h.set k, h.buf⟩

theorem sim_attempt {α : Type} {m : Mut σ α} {n : Mut τ α} (h : SimR R m n) : SimR R (attempt m) (attempt n) := fun s t r =>
  ⟨by simp only [attempt, (h s t r).1], (h s t r).2⟩

theorem sim_orElse {α : Type} {m : Mut σ α} {n : Mut τ α} {f : Mut σ Unit} {g : Mut τ Unit} (h : SimR R m n)
    (h' : SimR R f g) : SimR R (orElse m f) (orElse n g) := by
  intro s t r
  obtain ⟨e, r1⟩ := h s t r
  unfold orElse
  rcases hm : m s with ⟨a, s'⟩
  rcases hn : n t with ⟨b, t'⟩
  rw [hm, hn] at e r1
  simp only at e r1
  subst e
  cases a with
  | ok a => exact ⟨rfl, r1⟩
  | ub => exact ⟨rfl, r1⟩
  | abort => exact ⟨rfl, r1⟩
  | throw x =>
    obtain ⟨e2, r2⟩ := h' s' t' r1
    simp only
    rcases hf : f s' with ⟨a, s''⟩
    rcases hg : g t' with ⟨b, t''⟩
    rw [hf, hg] at e2 r2
    simp only at e2 r2
    subst e2
    cases a <;> exact ⟨rfl, r2⟩

/-- The memory is related, the rest is equal. -/
def Both (R : σ → τ → Prop) (s : σ × Held G1 G2 GT) (t : τ × Held G1 G2 GT) : Prop := R s.1 t.1 ∧ s.2 = t.2

theorem sim_mem {α : Type} {m : Mut σ α} {n : Mut τ α} (h : SimR R m n) :
    SimR (Both (G1 := G1) (G2 := G2) (GT := GT) R) (mem m) (mem n) := fun _ _ r => ⟨(h _ _ r.1).1, (h _ _ r.1).2, r.2⟩

theorem sim_look {α : Type} (f : Held G1 G2 GT → α × Held G1 G2 GT) :
    SimR (Both (G1 := G1) (G2 := G2) (GT := GT) R) (look f) (look f) := by
  rintro ⟨s, w⟩ ⟨t, _⟩ ⟨r, rfl⟩
  exact ⟨rfl, r, rfl⟩

theorem sim_if {α : Type} {p : Prop} [Decidable p] {m m' : Mut σ α} {n n' : Mut τ α} (h : SimR R m n) (h' : SimR R m' n') :
    SimR R (if p then m else m') (if p then n else n') := by
  split
  · exact h
  · exact h'

section Bodies
variable {q : Nat} [Fact q.Prime]
variable [AddCommGroup G1] [Module (ZMod q) G1] [AddCommGroup G2] [Module (ZMod q) G2] [AddCommGroup GT]
  [Module (ZMod q) GT]
variable {p p' : Get G1 G2 GT σ} {o o' : Get G1 G2 GT τ} {a a' : Store G1 G2 GT σ} {b b' : Store G1 G2 GT τ}

/-- Sequences of parts that do the same. -/
local macro "sim" : tactic => `(tactic| repeat' (first
  | exact SimR.lift _
  | assumption
  | (refine SimR.bind ?_ fun _ => ?_)
  | solve_by_elim))

theorem sim_cpParams (h : Agree R a b) (h' : Agree R a' b') (env : Env G1 G2 GT) (r : ParamRand q G1 G2) :
    SimR R (cpParams a a' env r) (cpParams b b' env r) := by
  have := h.set; have := h'.set
  unfold cpParams
  sim

theorem sim_kpParams (h : Agree R a b) (h' : Agree R a' b') (env : Env G1 G2 GT) (r : ParamRand q G1 G2) :
    SimR R (kpParams a a' env r) (kpParams b b' env r) := by
  have := h.set; have := h'.set
  unfold kpParams
  sim

theorem sim_cpKeyBody (hp : ∀ n, SimR R (p n) (o n)) (hp' : ∀ n, SimR R (p' n) (o' n)) (h : Agree R a b) (env : Env G1 G2 GT)
    (c : Ctx G1 G2 GT) (l : AttrList) (t : ZMod q) : SimR R (cpKeyBody p p' a env c l t) (cpKeyBody o o' b env c l t) := by
  have hs := h.set
  have hl := fun k => h.cpKeyLoop env k t l.attrs
  unfold cpKeyBody
  sim

theorem sim_kpKeyLoop (hp : ∀ n, SimR R (p n) (o n)) (h : Agree R a b) (env : Env G1 G2 GT) (k : Option Bytes) (r : Nat → ZMod q) :
    ∀ (rows : List (Bytes × (Bytes × ZMod q))) (i : Nat), SimR R (kpKeyLoop p a env k r i rows) (kpKeyLoop o b env k r i rows)
  | [], _ => SimR.lift _
  | row :: rows, i => by
    have hs := h.set
    have ih := sim_kpKeyLoop hp h env k r rows (i + 1)
    unfold kpKeyLoop
    sim

theorem sim_kpKeyBody (hp : ∀ n, SimR R (p n) (o n)) (hp' : ∀ n, SimR R (p' n) (o' n)) (h : Agree R a b) (env : Env G1 G2 GT)
    (c : Ctx G1 G2 GT) (y : Policy) (tape r : Nat → ZMod q) :
    SimR R (kpKeyBody p p' a env c y tape r) (kpKeyBody o o' b env c y tape r) := by
  have hs := h.set
  unfold kpKeyBody
  refine (hp _).bind fun k => (hs _ _).bind fun _ => (hp' _).bind fun _ => (SimR.lift _).bind fun _ => (SimR.lift _).bind fun sh => ?_
  cases sh.1.results with
  | nil => exact .lift _
  | cons x xs => exact (SimR.lift _).bind fun _ => sim_kpKeyLoop hp h env _ r _ _

theorem sim_keyBody (hp : ∀ n, SimR R (p n) (o n)) (hp' : ∀ n, SimR R (p' n) (o' n)) (h : Agree R a b) (env : Env G1 G2 GT)
    (sch : Scheme) (c : Ctx G1 G2 GT) (input : FInput) (r : Rand q) :
    SimR R (keyBody p p' a env sch c input r) (keyBody o o' b env sch c input r) := by
  cases sch <;> cases input
  all_goals first | exact sim_cpKeyBody hp hp' h env c _ _ | exact sim_kpKeyBody hp hp' h env c _ _ _ | exact .lift _

theorem sim_cpEncLoop (hp : ∀ n, SimR R (p n) (o n)) (h : Agree R a b) (env : Env G1 G2 GT) (k : Option Bytes) (r : Nat → ZMod q) :
    ∀ (rows : List (Bytes × (Bytes × ZMod q))) (i : Nat), SimR R (cpEncLoop p a env k r i rows) (cpEncLoop o b env k r i rows)
  | [], _ => SimR.lift _
  | row :: rows, i => by
    have hs := h.set
    have ih := sim_cpEncLoop hp h env k r rows (i + 1)
    unfold cpEncLoop
    sim

theorem sim_cpEncBody (hp : ∀ n, SimR R (p n) (o n)) (h : Agree R a b) (env : Env G1 G2 GT)
    (c : Ctx G1 G2 GT) (y : Policy) (len : Nat) (r : Rand q) : SimR R (cpEncBody p a env c y len r) (cpEncBody o b env c y len r) := by
  have hs := h.set
  have hl := fun k rows => sim_cpEncLoop hp h env k r.r rows 0
  have hk := h.buf
  unfold cpEncBody
  sim

theorem sim_kpEncBody (hp : ∀ n, SimR R (p n) (o n)) (h : Agree R a b) (env : Env G1 G2 GT)
    (c : Ctx G1 G2 GT) (l : AttrList) (len : Nat) (r : Rand q) : SimR R (kpEncBody p a env c l len r) (kpEncBody o b env c l len r) := by
  have hs := h.set
  have hl := fun k => h.kpEncLoop env k r.x l.attrs
  have hk := h.buf
  unfold kpEncBody
  sim

theorem sim_encBody (hp : ∀ n, SimR R (p n) (o n)) (h : Agree R a b) (env : Env G1 G2 GT) (sch : Scheme)
    (c : Ctx G1 G2 GT) (input : FInput) (r : Rand q) : SimR R (encBody p a env sch c input r) (encBody o b env sch c input r) := by
  cases sch <;> cases input
  all_goals first | exact sim_cpEncBody hp h env c _ _ _ | exact sim_kpEncBody hp h env c _ _ _ | exact .lift _

theorem sim_cpDecLoop (hp : ∀ n, SimR R (p n) (o n)) (hp' : ∀ n, SimR R (p' n) (o' n)) (env : Env G1 G2 GT) :
    ∀ (rows : List (Bytes × (Bytes × ZMod q))) (x : G1) (l : List (G1 × G2)), SimR R (cpDecLoop p p' env rows x l) (cpDecLoop o o' env rows x l)
  | [], _, _ => SimR.lift _
  | row :: rows, x, l => by
    have ih := sim_cpDecLoop hp hp' env rows
    unfold cpDecLoop
    sim

theorem sim_cpDecBody (hp : ∀ n, SimR R (p n) (o n)) (hp' : ∀ n, SimR R (p' n) (o' n)) (h : ∀ x, SimR R (a.buf x) (b.buf x)) (env : Env G1 G2 GT)
    (c : Ctx G1 G2 GT) (len : Nat) : SimR R (cpDecBody q p p' a env c len) (cpDecBody q o o' b env c len) := by
  have hk := h
  have hl := fun rows x l => sim_cpDecLoop (q := q) hp hp' env rows x l
  unfold cpDecBody
  refine (hp _).bind fun inp => (hp' _).bind fun _ => (SimR.lift _).bind fun _ => (SimR.lift _).bind fun _ => (SimR.lift _).bind fun _ =>
    (SimR.lift _).bind fun _ => sim_if (.lift _) ?_
  sim

theorem sim_kpDecLoop (hp : ∀ n, SimR R (p n) (o n)) (hp' : ∀ n, SimR R (p' n) (o' n)) (env : Env G1 G2 GT) :
    ∀ (rows : List (Bytes × (Bytes × ZMod q))) (x : G1) (l : List (G1 × G2)), SimR R (kpDecLoop p p' env rows x l) (kpDecLoop o o' env rows x l)
  | [], _, _ => SimR.lift _
  | row :: rows, x, l => by
    have ih := sim_kpDecLoop hp hp' env rows
    unfold kpDecLoop
    sim

theorem sim_kpDecBody (hp : ∀ n, SimR R (p n) (o n)) (hp' : ∀ n, SimR R (p' n) (o' n)) (h : ∀ x, SimR R (a.buf x) (b.buf x)) (env : Env G1 G2 GT)
    (c : Ctx G1 G2 GT) (len : Nat) : SimR R (kpDecBody q p p' a env c len) (kpDecBody q o o' b env c len) := by
  have hk := h
  have hl := fun rows x l => sim_kpDecLoop (q := q) hp hp' env rows x l
  unfold kpDecBody
  refine (hp _).bind fun inp => (SimR.lift _).bind fun _ => (SimR.lift _).bind fun _ => (hp' _).bind fun _ => (SimR.lift _).bind fun _ =>
    (SimR.lift _).bind fun _ => sim_if (.lift _) ?_
  sim

theorem sim_decBody (hp : ∀ n, SimR R (p n) (o n)) (hp' : ∀ n, SimR R (p' n) (o' n)) (h : ∀ x, SimR R (a.buf x) (b.buf x)) (env : Env G1 G2 GT)
    (sch : Scheme) (c : Ctx G1 G2 GT) : SimR R (decBody q p p' a env sch c) (decBody q o o' b env sch c) := by
  cases sch
  · exact sim_cpDecBody hp hp' h env c _
  · exact sim_kpDecBody hp hp' h env c _

theorem sim_plainBody (hp : ∀ n, SimR R (p n) (o n)) (hp' : ∀ n, SimR R (p' n) (o' n)) (h : ∀ x, SimR R (a.buf x) (b.buf x)) (env : Env G1 G2 GT)
    (sch : Scheme) (c : Ctx G1 G2 GT) : SimR R (plainBody q p p' a env sch c) (plainBody q o o' b env sch c) :=
  (sim_decBody hp hp' h env sch c).bind fun _ => (hp' _).bind fun _ => (SimR.lift _).bind fun _ => .lift _

omit [Fact (Nat.Prime q)] [AddCommGroup G1] [Module (ZMod q) G1] [AddCommGroup G2] [Module (ZMod q) G2] [AddCommGroup GT]
  [Module (ZMod q) GT] in
theorem sim_loadLoop (h : Agree R a b) (mk : Mktime) (cd : Codec G1 G2 GT) (blob : Bytes) : ∀ f i,
    SimR R (Mem.loadLoop a mk cd blob f i) (Mem.loadLoop b mk cd blob f i)
  | 0, _ => .lift _
  | f + 1, i => by
    unfold Mem.loadLoop
    refine (SimR.lift _).bind fun key => (SimR.lift _).bind fun value => (SimR.lift _).bind fun o => ?_
    cases o with
    | none => exact (SimR.lift _).bind fun _ => sim_if (sim_loadLoop h mk cd blob f _) (.lift _)
    | some o => exact (h.set _ _).bind fun _ => sim_if (sim_loadLoop h mk cd blob f _) (.lift _)

omit [Fact (Nat.Prime q)] [AddCommGroup G1] [Module (ZMod q) G1] [AddCommGroup G2] [Module (ZMod q) G2] [AddCommGroup GT]
  [Module (ZMod q) GT] in
theorem sim_loadAny (h : Agree R a b) (mk : Mktime) (cd : Codec G1 G2 GT) (blob : Bytes) :
    SimR R (Mem.load a mk cd blob) (Mem.load b mk cd blob) := sim_loadLoop h mk cd blob _ _

/-! ## The calls -/

variable {A : Arena G1 G2 GT σ} {B : Arena G1 G2 GT τ}

theorem sim_release (h : Same R A B) (k : Option (HKey G1 G2 GT)) : SimR (Both R) (release A k) (release B k) := by
  cases k with
  | none => exact .lift _
  | some k =>
    rintro ⟨s, w⟩ ⟨t, _⟩ ⟨r, rfl⟩
    unfold release
    simp only
    split
    · exact ⟨rfl, r, rfl⟩
    · exact sim_mem (h.drop _) _ _ ⟨r, rfl⟩

theorem sim_addKey (h : Same R A B) (id : Bytes) (k : HKey G1 G2 GT) (kind : KeyKind) :
    SimR (Both R) (addKey A id k kind) (addKey B id k kind) :=
  (sim_look _).bind fun _ => (sim_release h _).bind fun _ => sim_release h _

theorem sim_slot (h : Same R A B) (j : Nat) : SimR (Both R) (slot A j) (slot B j) := by
  unfold slot
  refine (sim_look _).bind fun x => ?_
  cases x with
  | some x => exact .lift _
  | none => exact (sim_mem h.new).bind fun _ => sim_look _

theorem sim_putSlot (h : Same R A B) (j : Nat) (x : Ciphertext G1 G2 GT × Nat) : SimR (Both R) (putSlot A j x) (putSlot B j x) := by
  unfold putSlot
  refine (sim_look _).bind fun y => ?_
  cases y with
  | some x => exact sim_mem (h.drop _)
  | none => exact .lift _

theorem sim_generateParams (h : Same R A B) (env : Env G1 G2 GT) (sch : Scheme) (mpkID mskID : Bytes) (r : ParamRand q G1 G2) :
    SimR (Both R) (generateParams A env sch mpkID mskID r) (generateParams B env sch mpkID mskID r) := by
  unfold generateParams
  refine (sim_look _).bind fun _ => (sim_look _).bind fun _ => sim_if (.lift _) ((sim_look _).bind fun _ => sim_if (.lift _) ?_)
  refine (sim_look _).bind fun _ => (sim_mem h.new).bind fun _ => (sim_mem h.new).bind fun _ => SimR.bind (sim_mem ?_) fun _ =>
    (sim_addKey h _ _ _).bind fun _ => (sim_addKey h _ _ _).bind fun _ => .lift _
  cases sch
  · exact sim_cpParams (h.store _) (h.store _) env r
  · exact sim_kpParams (h.store _) (h.store _) env r

theorem sim_generateKey (h : Same R A B) (env : Env G1 G2 GT) (sch : Scheme) (input : FInput) (keyID mpkID mskID : Bytes) (r : Rand q) :
    SimR (Both R) (generateKey A env sch input keyID mpkID mskID r) (generateKey B env sch input keyID mpkID mskID r) := by
  unfold generateKey
  refine sim_if (.lift _) ((sim_look _).bind fun c => (sim_look _).bind fun mpk => (sim_look _).bind fun msk => ?_)
  cases mpk with
  | none => exact .lift _
  | some mpk =>
    cases msk with
    | none => exact .lift _
    | some msk =>
      refine (sim_mem h.new).bind fun k => SimR.bind (sim_mem (sim_attempt (sim_orElse
        (sim_keyBody (fun n => h.get _ n) (fun n => h.get _ n) (h.store k) env sch c input r) (h.drop k)))) fun res => ?_
      cases res with
      | error e => exact .lift _
      | ok u => exact (sim_addKey h _ _ _).bind fun _ => .lift _

theorem sim_encryptInto (h : Same R A B) (env : Env G1 G2 GT) (sch : Scheme) (c : Ctx G1 G2 GT) (pub k : Nat) (input : FInput)
    (plaintext : Bytes) (r : Rand q) :
    SimR R (encryptInto A env sch c pub k input plaintext r) (encryptInto B env sch c pub k input plaintext r) := by
  unfold encryptInto
  refine (sim_attempt (sim_encBody (fun n => h.get _ n) (h.store k) env sch c input r)).bind fun res => ?_
  cases res with
  | error e => exact .lift _
  | ok K => exact (SimR.lift _).bind fun _ => (h.set _ _ _).bind fun _ => .lift _

theorem sim_encrypt (h : Same R A B) (env : Env G1 G2 GT) (sch : Scheme) (j : Nat) (mpkID : Bytes) (input : FInput)
    (plaintext : Bytes) (r : Rand q) :
    SimR (Both R) (encrypt A env sch j mpkID input plaintext r) (encrypt B env sch j mpkID input plaintext r) := by
  unfold encrypt
  refine sim_if (.lift _) ((sim_look _).bind fun c => (sim_look _).bind fun mpk => ?_)
  cases mpk with
  | none => exact .lift _
  | some mpk =>
    refine (sim_mem h.new).bind fun k => SimR.bind (sim_mem (sim_orElse (sim_encryptInto h env sch c _ k input plaintext r) (h.drop k)))
      fun res => ?_
    cases res with
    | none => exact (sim_putSlot h _ _).bind fun _ => .lift _
    | some e => exact (sim_mem (h.drop _)).bind fun _ => .lift _

theorem sim_decrypt (h : Same R A B) (env : Env G1 G2 GT) (sch : Scheme) (keyID : Bytes) (j : Nat) :
    SimR (Both R) (decrypt q A env sch keyID j) (decrypt q B env sch keyID j) := by
  unfold decrypt
  refine (sim_slot h j).bind fun ct => (sim_look _).bind fun c => (sim_look _).bind fun key => ?_
  cases key with
  | none => exact .lift _
  | some key =>
    refine SimR.bind (sim_mem (sim_attempt (sim_plainBody (fun n => h.get _ n) (fun n => h.get _ n) h.buf env sch c))) fun res => ?_
    cases res with
    | error e => exact .lift _
    | ok p => exact .lift _

theorem sim_getHashKey (h : Same R A B) (mpkID : Bytes) : SimR (Both R) (getHashKey A mpkID) (getHashKey B mpkID) := by
  unfold getHashKey
  refine (sim_look _).bind fun mpk => ?_
  cases mpk with
  | none => exact .lift _
  | some mpk => exact (sim_mem (h.get _ _)).bind fun _ => .lift _

theorem sim_exportKey (h : Same R A B) (keyID : Bytes) : SimR (Both R) (exportKey A keyID) (exportKey B keyID) := by
  unfold exportKey
  refine (sim_look _).bind fun key => ?_
  cases key with
  | none => exact .lift _
  | some key =>
    refine (sim_mem (sim_attempt (h.write _))).bind fun res => ?_
    cases res with
    | error e => exact .lift _
    | ok p => exact .lift _

theorem sim_loadKey (h : Same R A B) (mk : Mktime) (cd : Codec G1 G2 GT) (id blob rnd : Bytes) (kind : KeyKind) :
    SimR (Both R) (loadKey A mk cd id blob rnd kind) (loadKey B mk cd id blob rnd kind) := by
  unfold loadKey
  refine (SimR.lift _).bind fun hb => (sim_look _).bind fun _ => (sim_look _).bind fun c => sim_if (.lift _) ?_
  exact (sim_mem h.new).bind fun k => SimR.bind (sim_mem (sim_orElse (sim_loadAny (h.store k) mk cd _) (h.drop k))) fun _ =>
    (sim_addKey h _ _ _).bind fun _ => .lift _

theorem sim_exportCt (h : Same R A B) (j : Nat) : SimR (Both R) (exportCt A j) (exportCt B j) :=
  (sim_slot h j).bind fun _ => (sim_mem (h.write _)).bind fun _ => .lift _

theorem sim_loadCt (h : Same R A B) (mk : Mktime) (cd : Codec G1 G2 GT) (j : Nat) (blob : Bytes) :
    SimR (Both R) (loadCt A mk cd j blob) (loadCt B mk cd j blob) :=
  (SimR.lift _).bind fun _ => (sim_mem h.new).bind fun k =>
    SimR.bind (sim_mem (sim_orElse (sim_loadAny (h.store k) mk cd _) (h.drop k))) fun _ => sim_putSlot h _ _

theorem sim_deleteKey (h : Same R A B) (id : Bytes) : SimR (Both R) (deleteKey A id) (deleteKey B id) :=
  (sim_look _).bind fun _ => (sim_release h _).bind fun _ => (sim_release h _).bind fun _ => .lift _

theorem sim_step (h : Same R A B) (env : Env G1 G2 GT) (cd : Codec G1 G2 GT) (sch : Scheme) (c : Live.Call q G1 G2) :
    SimR (Both R) (step A env cd sch c) (step B env cd sch c) := by
  cases c with
  | params mpkID mskID r => exact (sim_generateParams h env sch _ _ _).bind fun _ => .lift _
  | keygen input keyID mpkID mskID r => exact (sim_generateKey h env sch _ _ _ _ _).bind fun _ => .lift _
  | encrypt j mpkID input plaintext r => exact (sim_encrypt h env sch _ _ _ _ _).bind fun _ => .lift _
  | decrypt keyID j => exact (sim_decrypt h env sch _ _).bind fun _ => .lift _
  | hashKey mpkID => exact (sim_getHashKey h _).bind fun _ => .lift _
  | exportKey id => exact (sim_exportKey h _).bind fun _ => .lift _
  | loadKey id blob rnd kind => exact (sim_loadKey h _ _ _ _ _ _).bind fun _ => .lift _
  | deleteKey id => exact (sim_deleteKey h _).bind fun _ => .lift _
  | check id => exact sim_look _
  | exportCt j => exact (sim_exportCt h _).bind fun _ => .lift _
  | loadCt j blob => exact (sim_loadCt h _ _ _ _).bind fun _ => .lift _

theorem sim_dropAll (h : Same R A B) : ∀ l : List Nat, SimR R (dropAll A l) (dropAll B l)
  | [] => .lift _
  | _ :: l => (h.drop _).bind fun _ => sim_dropAll h l

theorem sim_close (h : Same R A B) (n : Nat) : SimR (Both R) (close A n) (close B n) :=
  (sim_look _).bind fun _ => sim_mem (sim_dropAll h _)

end Bodies
end Sim

/-! ## On values, counting what is left behind -/

/-- Containers as values, and what has been left behind. -/
abbrev Book (G1 G2 GT : Type) := Values G1 G2 GT × List (Cell G1 G2 GT)

/-- A call on container `i`. -/
def within {α : Type} (i : Nat) (m : Mut (Mem.Ghost G1 G2 GT) α) : Mut (Book G1 G2 GT) α := fun t =>
  match at_ t.1 i with
  | none => (.ub, t)
  | some c => ((m (c, t.2)).1, t.1.set i (some (m (c, t.2)).2.1), (m (c, t.2)).2.2)

/-- `getComponent` on values. -/
def ghostGet (n : Bytes) : Mut (Mem.Ghost G1 G2 GT) (Obj G1 G2 GT) := fun t =>
  ((Container.getComponent t.1 n).1, (Container.getComponent t.1 n).2, t.2)

/-- The arena of values. -/
def onBook (cd : Codec G1 G2 GT) : Arena G1 G2 GT (Book G1 G2 GT) where
  new := fun t => (.ok t.1.length, t.1 ++ [some []], t.2)
  get i n := within i (ghostGet n)
  set i n o := within i (Mem.onGhost.set n o)
  buf b := fun t => (.ok (), t.1, t.2 ++ [.buf b])
  write i := within i fun t => (Container.serialize cd t.1, t.1, t.2 ++ Mem.buffers cd t.1)
  drop i := fun t => match at_ t.1 i with
    | none => (.ub, t)
    | some _ => (.ok (), t.1.set i none, t.2)

/-- Heap and values. -/
def HeapRel (w : Mem.World G1 G2 GT) (t : Book G1 G2 GT) : Prop := WRel w t.1 t.2

theorem sim_within {α : Type} (i : Nat) {m : Mut (Mem.State G1 G2 GT) α} {n : Mut (Mem.Ghost G1 G2 GT) α}
    (h : ∀ F, Mem.Sim F m n) : SimR HeapRel (inside i m) (within i n) := by
  rintro w ⟨v, L⟩ r
  have r : WRel w v L := r
  have hat := Mem.at_eq r i
  unfold inside within
  simp only [hat]
  cases hd : (w.conts[i]?).join with
  | none => exact ⟨rfl, r⟩
  | some d =>
    obtain ⟨e1, e2⟩ := h _ _ _ (r.one hd)
    exact ⟨e1, r.back hd e2⟩

theorem heap_buf {w : Mem.World G1 G2 GT} {v : Values G1 G2 GT} {L : List (Cell G1 G2 GT)} (r : WRel w v L) (b : Bytes) :
    WRel { w with heap := (w.heap.alloc (.buf b)).2 } v (L ++ [.buf b]) := by
  have hg : ∀ a ∈ w.conts.flatMap Mem.ptrsO, (w.heap.alloc (.buf b)).2.get a = w.heap.get a := fun a ha =>
    Mem.get_alloc _ _ _ (r.here a ha).lt
  refine ⟨?_, ?_, r.nodup, r.sorted, ?_⟩
  · rw [← r.val]
    apply List.map_congr_left
    intro x hx
    cases x with
    | none => rfl
    | some x =>
      simp only [Option.map_some, Option.some.injEq]
      exact Mem.view_congr fun a ha => hg a (List.mem_flatMap.mpr ⟨some x, hx, ha⟩)
  · intro a ha
    obtain ⟨o, ho, e⟩ := r.here a ha
    exact ⟨o, ho, by rw [hg a ha]; exact e⟩
  · show List.Perm (w.heap.alloc (.buf b)).2.live _
    rw [Mem.live_alloc, ← List.append_assoc]
    exact r.live.append_right _

theorem heap_drop {w : Mem.World G1 G2 GT} {v : Values G1 G2 GT} {L : List (Cell G1 G2 GT)} (r : WRel w v L) (cd : Codec G1 G2 GT)
    (i : Nat) : ((onWorld cd).drop i w).1 = ((onBook cd).drop i (v, L)).1 ∧
      HeapRel ((onWorld cd).drop i w).2 ((onBook cd).drop i (v, L)).2 := by
  show (Mut.bind _ _ w).1 = _ ∧ HeapRel (Mut.bind _ _ w).2 _
  have hat := Mem.at_eq r i
  simp only [onWorld, onBook, Mut.bind, inside, hat]
  cases hd : (w.conts[i]?).join with
  | none => exact ⟨rfl, r⟩
  | some d =>
    obtain ⟨e1, e2⟩ := Mem.rel_destroy (r.one hd)
    simp only [Option.map_some]
    rw [e1]
    have hd0 : (Mem.destroy (w.heap, d)).2.2 = [] := by
      unfold Mem.destroy
      obtain ⟨h', e, _⟩ := Mem.rel_destroyLoop d w.heap _ (r.one hd)
      simp only [e]
    have hb := r.back (d' := (Mem.destroy (w.heap, d)).2.2) (h' := (Mem.destroy (w.heap, d)).2.1) hd e2
    rw [hd0] at hb
    have hi : i < w.conts.length := by
      by_contra hn
      rw [List.getElem?_eq_none (by omega)] at hd; cases hd
    have := hb.none (i := i) (by simp [hi])
    simp only [List.set_set] at this
    simp only [forget, List.set_set]
    exact ⟨trivial, this⟩

theorem same_heap (cd : Codec G1 G2 GT) : Same HeapRel (onWorld cd) (onBook cd) where
  new := by
    rintro w ⟨v, L⟩ r
    have r : WRel w v L := r
    refine ⟨?_, r.append⟩
    show Res.ok _ = Res.ok _
    rw [← r.val]; simp
  get i n := sim_within i fun _ _ _ r => Mem.rel_get r n
  set i n o := sim_within i fun _ => Mem.sim_set n o
  buf b := fun _ _ r => ⟨rfl, heap_buf r b⟩
  write i := sim_within i fun _ _ _ r => Mem.rel_serialize cd r
  drop i := fun _ _ r => heap_drop r cd i

end Cm
end Abe
