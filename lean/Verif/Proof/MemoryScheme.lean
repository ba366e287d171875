import Verif.Proof.MemoryWorld
/-! The operations of the schemes that fill keys and ciphertexts: on pointers, on values, and what they leave behind. -/
set_option linter.unusedSimpArgs false
set_option linter.unusedSectionVars false
set_option autoImplicit false
namespace Abe
namespace Mem
open Live (Mut lift)
open Scheme
variable {G1 G2 GT : Type}

/-! ## Two ways to run an operation -/

section Agree
variable {σ τ : Type}

/-- Two computations do the same. -/
def SimR {α : Type} (R : σ → τ → Prop) (m : Mut σ α) (n : Mut τ α) : Prop :=
  ∀ s t, R s t → (m s).1 = (n t).1 ∧ R (m s).2 (n t).2

variable {R : σ → τ → Prop}

theorem SimR.lift {α : Type} (r : Res α) : SimR R (lift r) (Live.lift r) := fun _ _ h => ⟨rfl, h⟩

theorem SimR.bind {α β : Type} {m : Mut σ α} {n : Mut τ α} {f : α → Mut σ β} {g : α → Mut τ β} (h : SimR R m n)
    (h' : ∀ a, SimR R (f a) (g a)) : SimR R (m >>= f) (n >>= g) := by
  intro s t hr
  obtain ⟨e, hr'⟩ := h s t hr
  show (Mut.bind m f s).1 = (Mut.bind n g t).1 ∧ R (Mut.bind m f s).2 (Mut.bind n g t).2
  unfold Mut.bind
  rcases hm : m s with ⟨a, s'⟩
  rcases hn : n t with ⟨b, t'⟩
  rw [hm, hn] at e hr'
  simp only at e hr'
  subst e
  cases a with
  | ok a => exact h' a s' t' hr'
  | throw e => exact ⟨rfl, hr'⟩
  | ub => exact ⟨rfl, hr'⟩
  | abort => exact ⟨rfl, hr'⟩

/-- Two stores do the same. -/
structure Agree (R : σ → τ → Prop) (a : Store G1 G2 GT σ) (b : Store G1 G2 GT τ) : Prop where
  set : ∀ n o, SimR R (a.set n o) (b.set n o)
  buf : ∀ x, SimR R (a.buf x) (b.buf x)

variable {a : Store G1 G2 GT σ} {b : Store G1 G2 GT τ}
variable {q : Nat} [Fact q.Prime]
variable [AddCommGroup G1] [Module (ZMod q) G1] [AddCommGroup G2] [Module (ZMod q) G2] [AddCommGroup GT]
  [Module (ZMod q) GT]

theorem Agree.symKey (h : Agree R a b) (env : Env G1 G2 GT) (x : GT) (len : Nat) :
    SimR R (symKey a env x len) (Mem.symKey b env x len) :=
  (h.buf _).bind fun _ => .lift _

theorem Agree.cpKeyLoop (h : Agree R a b) (env : Env G1 G2 GT) (k : Option Bytes) (t : ZMod q) : ∀ l : List Bytes,
    SimR R (cpKeyLoop a env k t l) (Mem.cpKeyLoop b env k t l)
  | [] => .lift _
  | _ :: l => (SimR.lift _).bind fun _ => (h.set _ _).bind fun _ => Agree.cpKeyLoop h env k t l

theorem Agree.cpKeyBody (h : Agree R a b) (env : Env G1 G2 GT) (c : Ctx G1 G2 GT) (mpk msk : Key G1 G2 GT) (l : AttrList)
    (t : ZMod q) : SimR R (cpKeyBody a env c mpk msk l t) (Mem.cpKeyBody b env c mpk msk l t) :=
  (SimR.lift _).bind fun _ => (h.set _ _).bind fun _ => (SimR.lift _).bind fun _ => (SimR.lift _).bind fun _ =>
    (SimR.lift _).bind fun _ => (SimR.lift _).bind fun _ => (SimR.lift _).bind fun _ => (SimR.lift _).bind fun _ =>
    (SimR.lift _).bind fun _ => (h.set _ _).bind fun _ => (SimR.lift _).bind fun _ => (SimR.lift _).bind fun _ =>
    (h.set _ _).bind fun _ => h.cpKeyLoop env _ t _

theorem Agree.kpKeyLoop (h : Agree R a b) (env : Env G1 G2 GT) (mpk : Key G1 G2 GT) (k : Option Bytes) (r : Nat → ZMod q) :
    ∀ (rows : List (Bytes × (Bytes × ZMod q))) (i : Nat),
    SimR R (kpKeyLoop a env mpk k r i rows) (Mem.kpKeyLoop b env mpk k r i rows)
  | [], _ => .lift _
  | _ :: rows, i => (SimR.lift _).bind fun _ => (SimR.lift _).bind fun _ => (SimR.lift _).bind fun _ => (SimR.lift _).bind fun _ =>
    (SimR.lift _).bind fun _ => (h.set _ _).bind fun _ => (h.set _ _).bind fun _ => Agree.kpKeyLoop h env mpk k r rows (i + 1)

theorem Agree.kpKeyBody (h : Agree R a b) (env : Env G1 G2 GT) (c : Ctx G1 G2 GT) (mpk msk : Key G1 G2 GT) (p : Policy)
    (tape r : Nat → ZMod q) : SimR R (kpKeyBody a env c mpk msk p tape r) (Mem.kpKeyBody b env c mpk msk p tape r) := by
  refine (SimR.lift _).bind fun _ => (h.set _ _).bind fun _ => (SimR.lift _).bind fun _ => (SimR.lift _).bind fun _ =>
    (SimR.lift _).bind fun sh => ?_
  cases sh.1.results with
  | nil => exact .lift _
  | cons x xs => exact (SimR.lift _).bind fun _ => h.kpKeyLoop env mpk _ r _ _

theorem Agree.cpEncLoop (h : Agree R a b) (env : Env G1 G2 GT) (mpk : Key G1 G2 GT) (k : Option Bytes) (r : Nat → ZMod q) :
    ∀ (rows : List (Bytes × (Bytes × ZMod q))) (i : Nat),
    SimR R (cpEncLoop a env mpk k r i rows) (Mem.cpEncLoop b env mpk k r i rows)
  | [], _ => .lift _
  | _ :: rows, i => (SimR.lift _).bind fun _ => (SimR.lift _).bind fun _ => (h.set _ _).bind fun _ => (SimR.lift _).bind fun _ =>
    (SimR.lift _).bind fun _ => (SimR.lift _).bind fun _ => (h.set _ _).bind fun _ => Agree.cpEncLoop h env mpk k r rows (i + 1)

theorem Agree.cpEncBody (h : Agree R a b) (env : Env G1 G2 GT) (c : Ctx G1 G2 GT) (mpk : Key G1 G2 GT) (p : Policy) (len : Nat)
    (r : Rand q) : SimR R (cpEncBody a env c mpk p len r) (Mem.cpEncBody b env c mpk p len r) :=
  (SimR.lift _).bind fun _ => (SimR.lift _).bind fun _ => (SimR.lift _).bind fun _ => (SimR.lift _).bind fun _ =>
    (SimR.lift _).bind fun _ => (h.set _ _).bind fun _ => (SimR.lift _).bind fun _ => (SimR.lift _).bind fun _ =>
    (h.set _ _).bind fun _ => (h.cpEncLoop env mpk _ r.r _ _).bind fun _ => h.symKey env _ len

theorem Agree.kpEncLoop (h : Agree R a b) (env : Env G1 G2 GT) (k : Option Bytes) (t : ZMod q) : ∀ l : List Bytes,
    SimR R (kpEncLoop a env k t l) (Mem.kpEncLoop b env k t l)
  | [] => .lift _
  | _ :: l => (SimR.lift _).bind fun _ => (h.set _ _).bind fun _ => Agree.kpEncLoop h env k t l

theorem Agree.kpEncBody (h : Agree R a b) (env : Env G1 G2 GT) (c : Ctx G1 G2 GT) (mpk : Key G1 G2 GT) (l : AttrList) (len : Nat)
    (r : Rand q) : SimR R (kpEncBody a env c mpk l len r) (Mem.kpEncBody b env c mpk l len r) :=
  (SimR.lift _).bind fun _ => (SimR.lift _).bind fun _ => (SimR.lift _).bind fun _ => (SimR.lift _).bind fun _ =>
    (SimR.lift _).bind fun _ => (SimR.lift _).bind fun _ => (h.set _ _).bind fun _ => (h.kpEncLoop env _ r.x _).bind fun _ =>
    (h.set _ _).bind fun _ => h.symKey env _ len

theorem Agree.encryptBody (h : Agree R a b) (env : Env G1 G2 GT) (c : Ctx G1 G2 GT) (mpk : Key G1 G2 GT) (sch : Scheme)
    (input : FInput) (plaintext : Bytes) (r : Rand q) :
    SimR R (encryptBody a env c mpk sch input plaintext r) (Mem.encryptBody b env c mpk sch input plaintext r) := by
  cases sch with
  | cp => cases input with
    | policy p => exact (h.cpEncBody env c mpk _ _ r).bind fun _ => (SimR.lift _).bind fun _ => h.set _ _
    | attrs l => exact (SimR.lift _).bind fun _ => (SimR.lift _).bind fun _ => h.set _ _
    | null => exact (SimR.lift _).bind fun _ => (SimR.lift _).bind fun _ => h.set _ _
  | kp => cases input with
    | attrs l => exact (h.kpEncBody env c mpk _ _ r).bind fun _ => (SimR.lift _).bind fun _ => h.set _ _
    | policy p => exact (SimR.lift _).bind fun _ => (SimR.lift _).bind fun _ => h.set _ _
    | null => exact (SimR.lift _).bind fun _ => (SimR.lift _).bind fun _ => h.set _ _

theorem Agree.keyBody (h : Agree R a b) (env : Env G1 G2 GT) (c : Ctx G1 G2 GT) (mpk msk : Key G1 G2 GT) (sch : Scheme)
    (input : FInput) (r : Rand q) :
    SimR R (keyBody a env c mpk msk sch input r) (Mem.keyBody b env c mpk msk sch input r) := by
  cases sch <;> cases input
  all_goals first | exact h.cpKeyBody env c mpk msk _ _ | exact h.kpKeyBody env c mpk msk _ _ _ | exact .lift _

end Agree

theorem agree_heap {F : List (Nat × Obj G1 G2 GT)} : Agree (Rel F) onHeap onGhost := ⟨fun n o => sim_set n o, fun b => sim_buf b⟩

theorem agree_values : Agree (fun (t : Ghost G1 G2 GT) c => t.1 = c) onGhost onValues := by
  refine ⟨fun n o t c e => ?_, fun b t c e => ⟨rfl, e⟩⟩
  subst e
  by_cases ho : o = .null
  · subst ho; exact ⟨rfl, rfl⟩
  · rw [ghost_set ho]
    simp only [onValues, set_stored ho]
    exact ⟨trivial, trivial⟩

/-! ## On values: Model/Scheme -/

/-- What a computation returns, with the container afterwards. -/
def out {σ α : Type} (m : Mut σ α) (s : σ) : Res (α × σ) :=
  match m s with
  | (.ok a, s') => .ok (a, s')
  | (.throw e, _) => .throw e
  | (.ub, _) => .ub
  | (.abort, _) => .abort

theorem out_lift {σ α : Type} (r : Res α) (s : σ) : out (lift r) s = (r >>= fun a => .ok (a, s)) := by
  cases r <;> rfl

theorem out_bind {σ α β : Type} (m : Mut σ α) (f : α → Mut σ β) (s : σ) :
    out (m >>= f) s = (out m s >>= fun p => out (f p.1) p.2) := by
  show out (Mut.bind m f) s = _
  unfold out Mut.bind
  rcases m s with ⟨a, s'⟩
  cases a <;> rfl

theorem out_lift_bind {σ α β : Type} (r : Res α) (f : α → Mut σ β) (s : σ) :
    out (lift r >>= f) s = (r >>= fun a => out (f a) s) := by
  rw [out_bind, out_lift]; cases r <;> rfl

theorem out_set_bind {β : Type} (n : Bytes) (o : Obj G1 G2 GT) (f : Unit → Mut (Container G1 G2 GT) β) (c : Container G1 G2 GT) :
    out (onValues.set n o >>= f) c = (Container.setComponent c n o >>= fun d => out (f ()) d) := by
  rw [out_bind]
  unfold out
  simp only [onValues]
  cases Container.setComponent c n o <;> rfl

theorem out_set (n : Bytes) (o : Obj G1 G2 GT) (c : Container G1 G2 GT) :
    out (onValues.set n o) c = (Container.setComponent c n o >>= fun d => .ok ((), d)) := by
  unfold out
  simp only [onValues]
  cases Container.setComponent c n o <;> rfl

theorem bind_snd {α : Type} (r : Res α) : (r >>= fun d => Res.ok d) = r := by cases r <;> rfl

section Values
variable {q : Nat} [Fact q.Prime]
variable [AddCommGroup G1] [Module (ZMod q) G1] [AddCommGroup G2] [Module (ZMod q) G2] [AddCommGroup GT]
  [Module (ZMod q) GT]

theorem res_assoc {α β γ : Type} (x : Res α) (f : α → Res β) (g : β → Res γ) :
    ((x >>= f) >>= g) = (x >>= fun a => f a >>= g) := by cases x <;> rfl

theorem cpKeyLoop_values (env : Env G1 G2 GT) (k : Option Bytes) (t : ZMod q) : ∀ (l : List Bytes) (d : Container G1 G2 GT),
    out (cpKeyLoop onValues env k t l) d = (Scheme.cpKeyLoop env k t l d >>= fun d => .ok ((), d))
  | [], d => rfl
  | a :: l, d => by
    simp only [cpKeyLoop, Scheme.cpKeyLoop, out_lift_bind, out_set_bind, cpKeyLoop_values env k t l, res_assoc]

theorem cpKeyBody_values (env : Env G1 G2 GT) (c : Ctx G1 G2 GT) (mpk msk : Key G1 G2 GT) (l : AttrList) (t : ZMod q) :
    out (cpKeyBody onValues env c mpk msk l t) [] = (Scheme.cpKeyBody env c mpk msk l t >>= fun d => .ok ((), d)) := by
  simp only [cpKeyBody, Scheme.cpKeyBody, out_lift_bind, out_set_bind, cpKeyLoop_values, res_assoc]

theorem kpKeyLoop_values (env : Env G1 G2 GT) (mpk : Key G1 G2 GT) (k : Option Bytes) (r : Nat → ZMod q) :
    ∀ (rows : List (Bytes × (Bytes × ZMod q))) (i : Nat) (d : Container G1 G2 GT),
    out (kpKeyLoop onValues env mpk k r i rows) d = (Scheme.kpKeyLoop env mpk k r i rows d >>= fun d => .ok ((), d))
  | [], _, d => rfl
  | _ :: rows, i, d => by
    simp only [kpKeyLoop, Scheme.kpKeyLoop, out_lift_bind, out_set_bind, kpKeyLoop_values env mpk k r rows, res_assoc]

theorem kpKeyBody_values (env : Env G1 G2 GT) (c : Ctx G1 G2 GT) (mpk msk : Key G1 G2 GT) (p : Policy) (tape r : Nat → ZMod q) :
    out (kpKeyBody onValues env c mpk msk p tape r) [] =
      (Scheme.kpKeyBody env c mpk msk p tape r >>= fun d => .ok ((), d)) := by
  simp only [kpKeyBody, Scheme.kpKeyBody, out_lift_bind, out_set_bind, res_assoc]
  congr; funext k; congr; funext d; congr; funext y; congr; funext y; congr; funext sh
  obtain ⟨sh, _⟩ := sh
  cases sh.results with
  | nil => rfl
  | cons x xs => simp only [out_lift_bind, kpKeyLoop_values, res_assoc]

theorem cpEncLoop_values (env : Env G1 G2 GT) (mpk : Key G1 G2 GT) (k : Option Bytes) (r : Nat → ZMod q) :
    ∀ (rows : List (Bytes × (Bytes × ZMod q))) (i : Nat) (d : Container G1 G2 GT),
    out (cpEncLoop onValues env mpk k r i rows) d = (Scheme.cpEncLoop env mpk k r i rows d >>= fun d => .ok ((), d))
  | [], _, d => rfl
  | _ :: rows, i, d => by
    simp only [cpEncLoop, Scheme.cpEncLoop, out_lift_bind, out_set_bind, cpEncLoop_values env mpk k r rows, res_assoc]

theorem symKey_values (env : Env G1 G2 GT) (x : GT) (len : Nat) (d : Container G1 G2 GT) :
    out (symKey onValues env x len) d = (symKeyOf env x len >>= fun K => .ok (K, d)) := by
  unfold symKey
  rw [out_bind]
  show (Res.ok ((), d) >>= _) = _
  rw [Res.ok_bind, out_lift]

theorem cpEncBody_values (env : Env G1 G2 GT) (c : Ctx G1 G2 GT) (mpk : Key G1 G2 GT) (p : Policy) (len : Nat)
    (r : Rand q) (ct : Ciphertext G1 G2 GT) :
    (out (cpEncBody onValues env c mpk p len r) ct.comps >>= fun x => .ok (x.1, { ct with alg := c.alg, comps := x.2 })) =
      Scheme.cpEncBody env c mpk p len r ct := by
  simp only [cpEncBody, Scheme.cpEncBody, out_lift_bind, out_set_bind, out_bind, out_lift, out_set, cpEncLoop_values, symKey_values, res_assoc,
    Res.ok_bind]

theorem cpEncrypt_values (env : Env G1 G2 GT) (c : Ctx G1 G2 GT) (mpk : Key G1 G2 GT) (p : Policy) (plaintext : Bytes)
    (r : Rand q) (ct : Ciphertext G1 G2 GT) :
    out (encryptBody onValues env c mpk .cp (.policy p) plaintext r) ct.comps =
      (Scheme.cpEncBody env c mpk p symKeyBytes r ct >>= fun y => BS.xorAssign plaintext
        (hashFromBytes env.md y.1 plaintext.length schemeHashPrefix) >>= fun x =>
        Container.setComponent y.2.comps b!"_ED" (.bytes x) >>= fun d => .ok ((), d)) := by
  rw [← cpEncBody_values]
  simp only [encryptBody, out_bind, out_lift, out_set, res_assoc, Res.ok_bind]

theorem kpEncLoop_values (env : Env G1 G2 GT) (k : Option Bytes) (t : ZMod q) : ∀ (l : List Bytes) (d : Container G1 G2 GT),
    out (kpEncLoop onValues env k t l) d = (Scheme.kpEncLoop env k t l d >>= fun d => .ok ((), d))
  | [], d => rfl
  | a :: l, d => by
    simp only [kpEncLoop, Scheme.kpEncLoop, out_lift_bind, out_set_bind, kpEncLoop_values env k t l, res_assoc]

theorem kpEncBody_values (env : Env G1 G2 GT) (c : Ctx G1 G2 GT) (mpk : Key G1 G2 GT) (l : AttrList) (len : Nat)
    (r : Rand q) (ct : Ciphertext G1 G2 GT) :
    (out (kpEncBody onValues env c mpk l len r) ct.comps >>= fun x => .ok (x.1, { ct with alg := c.alg, comps := x.2 })) =
      Scheme.kpEncBody env c mpk l len r ct := by
  simp only [kpEncBody, Scheme.kpEncBody, out_lift_bind, out_set_bind, out_bind, out_lift, out_set, kpEncLoop_values, symKey_values, res_assoc,
    Res.ok_bind]

theorem kpEncrypt_values (env : Env G1 G2 GT) (c : Ctx G1 G2 GT) (mpk : Key G1 G2 GT) (l : AttrList) (plaintext : Bytes)
    (r : Rand q) (ct : Ciphertext G1 G2 GT) :
    out (encryptBody onValues env c mpk .kp (.attrs l) plaintext r) ct.comps =
      (Scheme.kpEncBody env c mpk l symKeyBytes r ct >>= fun y => BS.xorAssign plaintext
        (hashFromBytes env.md y.1 plaintext.length schemeHashPrefix) >>= fun x =>
        Container.setComponent y.2.comps b!"_ED" (.bytes x) >>= fun d => .ok ((), d)) := by
  rw [← kpEncBody_values]
  simp only [encryptBody, out_bind, out_lift, out_set, res_assoc, Res.ok_bind]

theorem caught_ok {α : Type} {r : Res α} {a : α} (h : caught r = .ok (.ok a)) : r = .ok a := by
  cases r with
  | ok x => cases h; rfl
  | throw e => cases e <;> cases h
  | ub => cases h
  | abort => cases h

theorem encrypt_values {env : Env G1 G2 GT} {sch : Scheme} {c c' : Ctx G1 G2 GT} {mpkID : Bytes} {input : FInput}
    {plaintext : Bytes} {r : Rand q} {ct ct' : Ciphertext G1 G2 GT}
    (h : Scheme.encrypt env sch c mpkID input plaintext r ct = .ok (.ok ct', c')) :
    ∃ mpk, (c.ks.getPublicKey mpkID).1 = some mpk ∧
      out (encryptBody onValues env c mpk sch input plaintext r) ct.comps = .ok ((), ct'.comps) := by
  unfold Scheme.encrypt at h
  rw [Res.bind_eq_ok] at h
  obtain ⟨⟨res, c1⟩, h1, h2⟩ := h
  cases res with
  | error e => cases h2
  | ok y =>
    obtain ⟨K, ct1⟩ := y
    simp only at h2
    rw [Res.bind_eq_ok] at h2
    obtain ⟨x, hx, h2⟩ := h2
    rw [Res.bind_eq_ok] at h2
    obtain ⟨d, hd, h2⟩ := h2
    cases h2
    unfold encryptKEM at h1
    cases sch <;> cases input
    all_goals first | cases h1 | skip
    all_goals
      simp only [Bool.true_eq_false, if_false] at h1
      rw [Res.bind_eq_ok] at h1
      obtain ⟨res, hr, h1⟩ := h1
      injection h1 with h1
      injection h1 with h1 _
      subst h1
      have hr := caught_ok hr
      cases hk : (c.ks.getPublicKey mpkID).1 with
      | none => rw [hk] at hr; cases hr
      | some mpk =>
        rw [hk] at hr
        simp only at hr
        refine ⟨mpk, rfl, ?_⟩
        first
          | rw [cpEncrypt_values, hr, Res.ok_bind]
          | rw [kpEncrypt_values, hr, Res.ok_bind]
        simp only [hx, hd, Res.ok_bind]

end Values

/-! ## What is set -/

theorem putAll_append (c : Container G1 G2 GT) (l l' : List (Bytes × Obj G1 G2 GT)) :
    putAll c (l ++ l') = putAll (putAll c l) l' := by
  unfold putAll; rw [List.foldl_append]

theorem overwritten_append : ∀ (l l' : List (Bytes × Obj G1 G2 GT)) (c : Container G1 G2 GT),
    overwritten c (l ++ l') = overwritten c l ++ overwritten (putAll c l) l'
  | [], _, _ => rfl
  | (n, o) :: l, l', c => by
    simp only [List.cons_append, overwritten, overwritten_append l l', List.append_assoc]
    rfl

/-- A computation that sets components with the names `N`, one after the other, and leaves `b` buffers behind; all of them if
it succeeds. -/
def Trace {α : Type} (N : List Bytes) (b : Nat) (m : Mut (Ghost G1 G2 GT) α) : Prop :=
  ∀ t, ∃ (S : List (Bytes × Obj G1 G2 GT)) (B : List (Cell G1 G2 GT)),
    S.map (·.1) <+: N ∧ B.length ≤ b ∧ (∀ e ∈ S, stored e.2 ≠ .null) ∧
    (∀ a, (m t).1 = .ok a → S.map (·.1) = N ∧ B.length = b) ∧
    (m t).2.1 = putAll t.1 S ∧ (m t).2.2.Perm (t.2 ++ overwritten t.1 S ++ B)

theorem Trace.lift {α : Type} (r : Res α) : Trace [] 0 (lift r : Mut (Ghost G1 G2 GT) α) := fun t =>
  ⟨[], [], by simp, by simp, by simp, fun _ _ => by simp, rfl, by simp [Live.lift, overwritten]⟩

theorem Trace.set (n : Bytes) (o : Obj G1 G2 GT) (h : stored o ≠ .null) : Trace [n] 0 (onGhost.set n o) := by
  intro t
  have ho : o ≠ .null := by rintro rfl; exact h rfl
  rw [ghost_set ho]
  exact ⟨[(n, o)], [], by simp, by simp, by simpa using h, fun _ _ => by simp, rfl, by simp [overwritten]⟩

theorem Trace.buf (b : Bytes) : Trace [] 1 (onGhost.buf b : Mut (Ghost G1 G2 GT) Unit) := fun t =>
  ⟨[], [.buf b], by simp, by simp, by simp, fun _ _ => by simp, rfl, by simp [onGhost, overwritten]⟩

theorem Trace.bind {α β : Type} {N N' : List Bytes} {b b' : Nat} {m : Mut (Ghost G1 G2 GT) α} {f : α → Mut (Ghost G1 G2 GT) β}
    (h : Trace N b m) (h' : ∀ a, Trace N' b' (f a)) : Trace (N ++ N') (b + b') (m >>= f) := by
  intro t
  obtain ⟨S, B, h1, h2, h3, h4, h5, h6⟩ := h t
  show ∃ S B, _ ∧ _ ∧ _ ∧ (∀ a, (Mut.bind m f t).1 = _ → _) ∧ (Mut.bind m f t).2.1 = _ ∧ ((Mut.bind m f t).2.2).Perm _
  unfold Mut.bind
  have stop : ∀ (r : Res β) (t' : Ghost G1 G2 GT), (∀ a, r ≠ .ok a) → t'.1 = putAll t.1 S →
      t'.2.Perm (t.2 ++ overwritten t.1 S ++ B) →
      ∃ (S : List (Bytes × Obj G1 G2 GT)) (B : List (Cell G1 G2 GT)), S.map (·.1) <+: (N ++ N') ∧ B.length ≤ b + b' ∧
        (∀ e ∈ S, stored e.2 ≠ .null) ∧ (∀ a, (r, t').1 = .ok a → S.map (·.1) = N ++ N' ∧ B.length = b + b') ∧
        (r, t').2.1 = putAll t.1 S ∧ (r, t').2.2.Perm (t.2 ++ overwritten t.1 S ++ B) := fun r t' hr e1 e2 =>
    ⟨S, B, h1.trans (List.prefix_append _ _), by omega, h3, fun a e => absurd e (hr a), e1, e2⟩
  rcases hm : m t with ⟨a, t'⟩
  rw [hm] at h4 h5 h6
  simp only at h4 h5 h6
  cases a with
  | throw e => exact stop _ _ (by intro a e; cases e) h5 h6
  | ub => exact stop _ _ (by intro a e; cases e) h5 h6
  | abort => exact stop _ _ (by intro a e; cases e) h5 h6
  | ok a =>
    obtain ⟨S', B', g1, g2, g3, g4, g5, g6⟩ := h' a t'
    obtain ⟨k1, k2⟩ := h4 a rfl
    refine ⟨S ++ S', B ++ B', ?_, ?_, ?_, ?_, ?_, ?_⟩
    · rw [List.map_append, k1]; exact (List.prefix_append_right_inj _).mpr g1
    · rw [List.length_append]; omega
    · intro e he
      rcases List.mem_append.mp he with he | he
      · exact h3 e he
      · exact g3 e he
    · intro x hx
      obtain ⟨j1, j2⟩ := g4 x hx
      exact ⟨by rw [List.map_append, k1, j1], by rw [List.length_append]; omega⟩
    · rw [putAll_append, ← h5]; exact g5
    · rw [overwritten_append, ← h5]
      refine g6.trans ?_
      refine ((h6.append_right _).append_right _).trans ?_
      simp only [List.append_assoc]
      refine List.Perm.append_left _ (List.Perm.append_left _ ?_)
      rw [← List.append_assoc, ← List.append_assoc]
      exact List.perm_append_comm.append_right _

theorem Trace.lift_bind {α β : Type} {N : List Bytes} {b : Nat} {r : Res α} {f : α → Mut (Ghost G1 G2 GT) β}
    (h : ∀ a, r = .ok a → Trace N b (f a)) : Trace N b (Live.lift r >>= f) := by
  cases r with
  | ok a => exact h a rfl
  | throw e => exact fun t => ⟨[], [], by simp, by simp, by simp, fun _ e => (by cases e), rfl, by
      show List.Perm t.2 _; simp [overwritten]⟩
  | ub => exact fun t => ⟨[], [], by simp, by simp, by simp, fun _ e => (by cases e), rfl, by
      show List.Perm t.2 _; simp [overwritten]⟩
  | abort => exact fun t => ⟨[], [], by simp, by simp, by simp, fun _ e => (by cases e), rfl, by
      show List.Perm t.2 _; simp [overwritten]⟩

theorem Trace.set_bind {β : Type} {N : List Bytes} {b : Nat} {n : Bytes} {o : Obj G1 G2 GT}
    {f : Unit → Mut (Ghost G1 G2 GT) β} (ho : stored o ≠ .null) (h : ∀ u, Trace N b (f u)) : Trace (n :: N) b (onGhost.set n o >>= f) := by
  have := (Trace.set n o ho).bind h
  simpa using this

/-! ## Counting -/

theorem under_length {c : Container G1 G2 GT} (hn : ∀ e ∈ c, e.2 ≠ .null) (n : Bytes) :
    (under c n).length = if (SMap.find n c).isSome then 1 else 0 := by
  unfold under
  cases h : SMap.find n c with
  | none => rfl
  | some o =>
    have := hn _ (SMap.mem_of_find h)
    cases o <;> first | exact absurd rfl this | rfl

theorem mem_insert_ne {c : Container G1 G2 GT} (hn : ∀ e ∈ c, e.2 ≠ .null) {n : Bytes} {o : Obj G1 G2 GT} (ho : o ≠ .null) :
    ∀ e ∈ SMap.insert n o c, e.2 ≠ .null := by
  intro e he
  rcases SMap.mem_insert he with h | h
  · rw [h]; exact ho
  · exact hn e (h.elim And.left id)

theorem putAll_ne : ∀ (S : List (Bytes × Obj G1 G2 GT)) (c : Container G1 G2 GT), (∀ e ∈ c, e.2 ≠ .null) →
    (∀ e ∈ S, stored e.2 ≠ .null) → ∀ e ∈ putAll c S, e.2 ≠ .null
  | [], _, h, _ => h
  | x :: S, c, h, hS => putAll_ne S (SMap.insert x.1 (stored x.2) c) (mem_insert_ne h (hS x (by simp)))
      (fun e he => hS e (by simp [he]))

theorem overwritten_length : ∀ (S : List (Bytes × Obj G1 G2 GT)) (c : Container G1 G2 GT), SMap.Sorted c →
    (∀ e ∈ c, e.2 ≠ .null) → (∀ e ∈ S, stored e.2 ≠ .null) →
    (overwritten c S).length + (putAll c S).length = c.length + S.length
  | [], c, _, _, _ => by simp [overwritten, putAll]
  | x :: S, c, hs, hn, hS => by
    have ih := overwritten_length S (SMap.insert x.1 (stored x.2) c) (SMap.sorted_insert hs)
      (mem_insert_ne hn (hS x (by simp))) (fun e he => hS e (by simp [he]))
    have e1 : putAll c (x :: S) = putAll (SMap.insert x.1 (stored x.2) c) S := rfl
    have e2 : overwritten c (x :: S) = under c x.1 ++ overwritten (SMap.insert x.1 (stored x.2) c) S := rfl
    rw [e1, e2, List.length_append, under_length hn, List.length_cons]
    rcases insert_cases hs x.1 (stored x.2) with ⟨h1, h2⟩ | ⟨w, m', h1, h2, h3⟩
    · rw [h1, h2.length_eq] at *
      simp only [List.length_cons, Option.isSome_none, Bool.false_eq_true, if_false] at *
      omega
    · have a1 := h2.length_eq
      have a2 := h3.length_eq
      rw [h1]
      simp only [List.length_cons, Option.isSome_some, if_true] at *
      omega

theorem overwritten_fresh : ∀ (S : List (Bytes × Obj G1 G2 GT)) (c : Container G1 G2 GT), SMap.Sorted c →
    (S.map (·.1)).Nodup → (∀ n ∈ S.map (·.1), SMap.find n c = none) → overwritten c S = []
  | [], _, _, _, _ => rfl
  | x :: S, c, hs, hd, hf => by
    have e2 : overwritten c (x :: S) = under c x.1 ++ overwritten (SMap.insert x.1 (stored x.2) c) S := rfl
    rw [List.map_cons, List.nodup_cons] at hd
    have h1 : under c x.1 = [] := by unfold under; rw [hf x.1 (by simp)]
    rw [e2, h1, overwritten_fresh S _ (SMap.sorted_insert hs) hd.2, List.append_nil]
    intro n hn
    have hne : n ≠ x.1 := by rintro rfl; exact hd.1 hn
    rw [SMap.find_insert, if_neg hne]
    exact hf n (by simp [hn])

theorem find_isNone {α : Type} (n : Bytes) (m : SMap α) : (SMap.find n m).isNone = true ↔ n ∉ m.map (·.1) := by
  induction m with
  | nil => simp [SMap.find]
  | cons e m ih =>
    obtain ⟨k, v⟩ := e
    simp only [SMap.find, List.map_cons, List.mem_cons, not_or]
    by_cases h : n = k
    · simp [h]
    · rw [if_neg h, ih]; simp [h]

theorem mem_keys_insert' {α : Type} (k n : Bytes) (v : α) (m : SMap α) :
    n ∈ (SMap.insert k v m).map (·.1) ↔ n = k ∨ n ∈ m.map (·.1) := by
  have h1 := find_isNone n (SMap.insert k v m)
  have h2 := find_isNone n m
  rw [SMap.find_insert] at h1
  by_cases h : n = k
  · rw [if_pos h] at h1
    simp only [Option.isNone_some, Bool.false_eq_true, false_iff, not_not] at h1
    exact ⟨fun _ => Or.inl h, fun _ => h1⟩
  · rw [if_neg h, h2] at h1
    constructor
    · intro hn; exact Or.inr (by by_contra hc; exact h1.mp hc hn)
    · rintro (e | hn)
      · exact absurd e h
      · by_contra hc; exact h1.mpr hc hn

theorem putAll_mem : ∀ (S : List (Bytes × Obj G1 G2 GT)) (c : Container G1 G2 GT) (n : Bytes),
    n ∈ (putAll c S).map (·.1) ↔ n ∈ c.map (·.1) ∨ n ∈ S.map (·.1)
  | [], _, _ => by simp [putAll]
  | x :: S, c, n => by
    have e1 : putAll c (x :: S) = putAll (SMap.insert x.1 (stored x.2) c) S := rfl
    rw [e1, putAll_mem S, mem_keys_insert', List.map_cons, List.mem_cons]
    tauto

theorem putAll_sorted : ∀ (S : List (Bytes × Obj G1 G2 GT)) (c : Container G1 G2 GT), SMap.Sorted c → SMap.Sorted (putAll c S)
  | [], _, h => h
  | _ :: S, _, h => putAll_sorted S _ (SMap.sorted_insert h)

theorem sorted_keys_nodup {α : Type} : ∀ {m : SMap α}, SMap.Sorted m → (m.map (·.1)).Nodup
  | [], _ => List.nodup_nil
  | (k, v) :: m, h => by
    rw [List.map_cons, List.nodup_cons]
    refine ⟨?_, sorted_keys_nodup h.2⟩
    intro hm
    obtain ⟨p, hp, e⟩ := List.mem_map.mp hm
    exact blt_ne (h.1 p hp) e.symm

/-- The number of components afterwards: the new names come in addition. -/
theorem putAll_length {S : List (Bytes × Obj G1 G2 GT)} {c : Container G1 G2 GT} (hs : SMap.Sorted c) {N : List Bytes}
    (hN : S.map (·.1) = N) : (putAll c S).length = c.length + (N.dedup.filter fun n => (SMap.find n c).isNone).length := by
  have h1 := sorted_keys_nodup (putAll_sorted S c hs)
  have h2 : (c.map (·.1) ++ N.dedup.filter fun n => (SMap.find n c).isNone).Nodup := by
    refine List.nodup_append.mpr ⟨sorted_keys_nodup hs, (List.nodup_dedup N).filter _, ?_⟩
    rintro a ha b hb rfl
    have := (List.mem_filter.mp hb).2
    exact (find_isNone _ _).mp this ha
  have h3 : ((putAll c S).map (·.1)).Perm (c.map (·.1) ++ N.dedup.filter fun n => (SMap.find n c).isNone) := by
    rw [List.perm_ext_iff_of_nodup h1 h2]
    intro n
    rw [putAll_mem, hN, List.mem_append, List.mem_filter, List.mem_dedup, find_isNone]
    tauto
  have := h3.length_eq
  rwa [List.length_map, List.length_append, List.length_map] at this

/-! ## The operations -/

section Ops
variable {q : Nat} [Fact q.Prime]
variable [AddCommGroup G1] [Module (ZMod q) G1] [AddCommGroup G2] [Module (ZMod q) G2] [AddCommGroup GT]
  [Module (ZMod q) GT]

theorem ne_g1 (x : G1) : stored (.g1 x : Obj G1 G2 GT) ≠ .null := by intro e; cases e
theorem ne_g2 (x : G2) : stored (.g2 x : Obj G1 G2 GT) ≠ .null := by intro e; cases e
theorem ne_bytes (x : Bytes) : stored (.bytes x : Obj G1 G2 GT) ≠ .null := by intro e; cases e
theorem ne_attrs (x : AttrList) : stored (.attrs x : Obj G1 G2 GT) ≠ .null := by intro e; cases e

theorem trace_symKey (env : Env G1 G2 GT) (x : GT) (len : Nat) : Trace [] 1 (symKey onGhost env x len) := by
  exact (Trace.buf (G1 := G1) (G2 := G2) (GT := GT) (env.wT x)).bind (fun _ => Trace.lift (symKeyOf env x len))

theorem trace_cpKeyLoop (env : Env G1 G2 GT) (k : Option Bytes) (t : ZMod q) : ∀ l : List Bytes,
    Trace (l.map fun a => elementLabel b!"KX" (hashKey env.md a)) 0 (cpKeyLoop onGhost env k t l)
  | [] => .lift _
  | _ :: l => .lift_bind fun _ _ => .set_bind (ne_g1 _) fun _ => trace_cpKeyLoop env k t l

theorem trace_cpKeyBody (env : Env G1 G2 GT) (c : Ctx G1 G2 GT) (mpk msk : Key G1 G2 GT) (l : AttrList) (t : ZMod q) :
    Trace (cpKeyNames env.md l.attrs) 0 (cpKeyBody onGhost env c mpk msk l t) :=
  .lift_bind fun _ _ => .set_bind (ne_attrs _) fun _ => .lift_bind fun _ _ => .lift_bind fun _ _ => .lift_bind fun _ _ =>
    .lift_bind fun _ _ => .lift_bind fun _ _ => .lift_bind fun _ _ => .lift_bind fun _ _ => .set_bind (ne_g2 _) fun _ =>
    .lift_bind fun _ _ => .lift_bind fun _ _ => .set_bind (ne_g2 _) fun _ => trace_cpKeyLoop env _ t _

theorem trace_kpKeyLoop (env : Env G1 G2 GT) (mpk : Key G1 G2 GT) (k : Option Bytes) (r : Nat → ZMod q) :
    ∀ (rows : List (Bytes × (Bytes × ZMod q))) (i : Nat),
    Trace (rowNames env.md b!"D" b!"d" (rows.map (·.1))) 0 (kpKeyLoop onGhost env mpk k r i rows)
  | [], _ => .lift _
  | _ :: rows, i => .lift_bind fun _ _ => .lift_bind fun _ _ => .lift_bind fun _ _ => .lift_bind fun _ _ =>
    .lift_bind fun _ _ => .set_bind (ne_g1 _) fun _ => .set_bind (ne_g2 _) fun _ => trace_kpKeyLoop env mpk k r rows (i + 1)

theorem trace_kpKeyBody (env : Env G1 G2 GT) (c : Ctx G1 G2 GT) (mpk msk : Key G1 G2 GT) (p : Policy) (tape r : Nat → ZMod q) :
    Trace (b!"input" :: rowNames env.md b!"D" b!"d" (sharedNames (kpSharing env msk p tape))) 0
      (kpKeyBody onGhost env c mpk msk p tape r) := by
  refine .lift_bind fun _ _ => .set_bind (ne_bytes _) fun _ => .lift_bind fun y hy => .lift_bind fun y' hy' => .lift_bind fun sh hsh => ?_
  have e : kpSharing env msk p tape = .ok sh := by
    unfold kpSharing; rw [hy, Res.ok_bind, hy', Res.ok_bind, hsh]
  rw [e]
  simp only [sharedNames]
  cases sh.1.results with
  | nil => exact .lift _
  | cons x xs => exact .lift_bind fun _ _ => trace_kpKeyLoop env mpk _ r _ _

theorem trace_cpEncLoop (env : Env G1 G2 GT) (mpk : Key G1 G2 GT) (k : Option Bytes) (r : Nat → ZMod q) :
    ∀ (rows : List (Bytes × (Bytes × ZMod q))) (i : Nat),
    Trace (rowNames env.md b!"D" b!"C" (rows.map (·.1))) 0 (cpEncLoop onGhost env mpk k r i rows)
  | [], _ => .lift _
  | _ :: rows, i => .lift_bind fun _ _ => .lift_bind fun _ _ => .set_bind (ne_g2 _) fun _ => .lift_bind fun _ _ =>
    .lift_bind fun _ _ => .lift_bind fun _ _ => .set_bind (ne_g1 _) fun _ => trace_cpEncLoop env mpk k r rows (i + 1)

theorem trace_cpEncBody (env : Env G1 G2 GT) (c : Ctx G1 G2 GT) (mpk : Key G1 G2 GT) (p : Policy) (len : Nat) (r : Rand q) :
    Trace (b!"policy" :: b!"Cprime" :: rowNames env.md b!"D" b!"C"
        (sharedNames (shareSecret env.ndebug {} (some p) r.x r.tape))) 1 (cpEncBody onGhost env c mpk p len r) := by
  refine .lift_bind fun k _ => .lift_bind fun _ _ => .lift_bind fun _ _ => .lift_bind fun A _ => .lift_bind fun sh hsh =>
    .set_bind (ne_bytes _) fun _ => .lift_bind fun _ _ => .lift_bind fun _ _ => .set_bind (ne_g1 _) fun _ => ?_
  rw [hsh]
  have := (trace_cpEncLoop env mpk k r.r sh.1.results 0).bind (fun _ => trace_symKey env (r.x • A) len)
  rw [List.append_nil, Nat.zero_add] at this
  exact this

theorem trace_kpEncLoop (env : Env G1 G2 GT) (k : Option Bytes) (t : ZMod q) : ∀ l : List Bytes,
    Trace (l.map fun a => elementLabel b!"C" (hashKey env.md a)) 0 (kpEncLoop onGhost env k t l)
  | [] => .lift _
  | _ :: l => .lift_bind fun _ _ => .set_bind (ne_g1 _) fun _ => trace_kpEncLoop env k t l

theorem trace_kpEncBody (env : Env G1 G2 GT) (c : Ctx G1 G2 GT) (mpk : Key G1 G2 GT) (l : AttrList) (len : Nat) (r : Rand q) :
    Trace (b!"Cpr2" :: ((l.attrs.map fun a => elementLabel b!"C" (hashKey env.md a)) ++ [b!"attributes"])) 1
      (kpEncBody onGhost env c mpk l len r) := by
  refine .lift_bind fun k _ => .lift_bind fun _ _ => .lift_bind fun _ _ => .lift_bind fun Y _ => .lift_bind fun _ _ =>
    .lift_bind fun _ _ => .set_bind (ne_g2 _) fun _ => ?_
  have := (trace_kpEncLoop env k r.x l.attrs).bind (fun _ => Trace.set_bind (n := b!"attributes") (ne_attrs l)
    fun _ => trace_symKey env (r.x • Y) len)
  rw [Nat.zero_add] at this
  exact this

theorem trace_encryptBody (env : Env G1 G2 GT) (c : Ctx G1 G2 GT) (mpk : Key G1 G2 GT) (sch : Scheme)
    (input : FInput) (plaintext : Bytes) (r : Rand q) :
    Trace (ctNames env.md sch input (inputRows env r input)) 1 (encryptBody onGhost env c mpk sch input plaintext r) := by
  have tail : ∀ K : Bytes, Trace [b!"_ED"] 0 (Live.lift (BS.xorAssign plaintext
      (hashFromBytes env.md K plaintext.length schemeHashPrefix)) >>= fun x => onGhost.set b!"_ED" (.bytes x) :
      Mut (Ghost G1 G2 GT) Unit) := fun K => .lift_bind fun _ _ => .set _ _ (ne_bytes _)
  have bad : ∀ N, Trace N 1 (Live.lift (.throw .invalidInput) >>= fun K => Live.lift (BS.xorAssign plaintext
      (hashFromBytes env.md K plaintext.length schemeHashPrefix)) >>= fun x => onGhost.set b!"_ED" (.bytes x) :
      Mut (Ghost G1 G2 GT) Unit) := fun N => .lift_bind fun _ e => by cases e
  cases sch with
  | cp => cases input with
    | policy p => exact (trace_cpEncBody env c mpk p symKeyBytes r).bind tail
    | attrs l => exact bad _
    | null => exact bad _
  | kp => cases input with
    | attrs l => exact (trace_kpEncBody env c mpk l symKeyBytes r).bind tail
    | policy p => exact bad _
    | null => exact bad _

end Ops

/-! ## From pointers to what is left behind -/

theorem rel_start (h : Heap G1 G2 GT) : Rel [] (h, []) (([] : Container G1 G2 GT), h.live) :=
  ⟨rfl, by simp [ptrs], by simp, by simp [ptrs], trivial, by simp [objs]⟩

/-- An operation on the heap, from its trace. -/
theorem fill_heap {α : Type} {F : List (Nat × Obj G1 G2 GT)} {N : List Bytes} {b : Nat} {m : Mut (State G1 G2 GT) α}
    {n : Mut (Ghost G1 G2 GT) α} {v : Mut (Container G1 G2 GT) α} (hs : SimR (Rel F) m n)
    (hv : SimR (fun (t : Ghost G1 G2 GT) c => t.1 = c) n v) (ht : Trace N b n) {s : State G1 G2 GT} {c : Container G1 G2 GT}
    {L : List (Cell G1 G2 GT)} (r : Rel F s (c, L)) (hc : ∀ e ∈ c, e.2 ≠ .null) :
    out v c = ((m s).1 >>= fun a => .ok (a, view (m s).2.1 (m s).2.2)) ∧
    ∃ left, Rel F (m s).2 (view (m s).2.1 (m s).2.2, L ++ left) ∧
      (∀ a, (m s).1 = .ok a →
        left.length + (N.dedup.filter fun n => (SMap.find n c).isNone).length = b + N.length) ∧
      (N.Nodup → (∀ x ∈ N, SMap.find x c = none) → left.length ≤ b) := by
  obtain ⟨e1, r1⟩ := hs s (c, L) r
  obtain ⟨e2, r2⟩ := hv (c, L) c rfl
  obtain ⟨S, B, h1, h2, h3, h4, h5, h6⟩ := ht (c, L)
  have hval : view (m s).2.1 (m s).2.2 = (n (c, L)).2.1 := r1.val
  have hlen : (S.map (·.1)).length = S.length := List.length_map ..
  have hcount := overwritten_length S c r.sortedVal hc h3
  simp only at h5 h6 r2
  refine ⟨?_, overwritten c S ++ B, ?_, ?_, ?_⟩
  · rw [hval, e1, e2, r2]
    unfold out
    rcases v c with ⟨a, c'⟩
    cases a <;> rfl
  · rw [hval]
    refine ⟨r1.val, r1.here, r1.frame, r1.nodup, r1.sorted, r1.live.trans ?_⟩
    rw [← List.append_assoc L]
    exact h6.append_left _
  · intro a ha
    rw [e1] at ha
    obtain ⟨k1, k2⟩ := h4 a ha
    have k3 := putAll_length r.sortedVal k1
    have k4 : S.length = N.length := by rw [← k1, List.length_map]
    simp only at k3
    rw [List.length_append]
    omega
  · intro hd hf
    have : overwritten c S = [] := overwritten_fresh S c r.sortedVal (h1.sublist.nodup hd)
      (fun x hx => hf x (h1.subset hx))
    rw [this, List.nil_append]
    exact h2

theorem label_inj {base u v : Bytes} (h : elementLabel base u = elementLabel base v) : u = v := by
  unfold elementLabel at h
  exact List.append_cancel_left h

theorem cpKeyNames_nodup {md : Bytes → Bytes} {l : List Bytes} (h : (l.map (hashKey md)).Nodup) : (cpKeyNames md l).Nodup := by
  unfold cpKeyNames
  have h0 : ∀ (x : Bytes), x.head? ≠ some 75 ∨ x.length < 2 →
      x ∉ l.map fun a => elementLabel b!"KX" (hashKey md a) := by
    intro x hx hm
    obtain ⟨a, _, rfl⟩ := List.mem_map.mp hm
    unfold elementLabel at hx
    simp at hx
  have h1 : (l.map fun a => elementLabel b!"KX" (hashKey md a)).Nodup := by
    have e : (l.map fun a => elementLabel b!"KX" (hashKey md a)) = (l.map (hashKey md)).map (elementLabel b!"KX") := by
      rw [List.map_map]; rfl
    rw [e]
    exact h.map (fun _ _ => label_inj)
  refine List.nodup_cons.mpr ⟨?_, List.nodup_cons.mpr ⟨?_, List.nodup_cons.mpr ⟨?_, h1⟩⟩⟩
  · simp only [List.mem_cons, not_or]
    exact ⟨by decide, by decide, h0 _ (by decide)⟩
  · simp only [List.mem_cons, not_or]
    exact ⟨by decide, h0 _ (by decide)⟩
  · exact h0 _ (by decide)

theorem rowNames_head {md : Bytes → Bytes} {x y : UInt8} {l : List Bytes} {n : Bytes} (h : n ∈ rowNames md [x] [y] l) :
    ∃ u ∈ l, n = elementLabel [x] (hashKey md u) ∨ n = elementLabel [y] (hashKey md u) := by
  unfold rowNames at h
  obtain ⟨u, hu, hn⟩ := List.mem_flatMap.mp h
  refine ⟨u, hu, ?_⟩
  simpa using hn

theorem rowNames_nodup {md : Bytes → Bytes} {x y : UInt8} (hxy : x ≠ y) : ∀ {l : List Bytes}, (l.map (hashKey md)).Nodup →
    (rowNames md [x] [y] l).Nodup
  | [], _ => List.nodup_nil
  | u :: l, h => by
    rw [List.map_cons, List.nodup_cons] at h
    have e : rowNames md [x] [y] (u :: l) =
      elementLabel [x] (hashKey md u) :: elementLabel [y] (hashKey md u) :: rowNames md [x] [y] l := rfl
    have hne : ∀ a b : Bytes, elementLabel [x] a ≠ elementLabel [y] b := by
      intro a b e; unfold elementLabel at e; simp at e; exact hxy e.1
    rw [e]
    refine List.nodup_cons.mpr ⟨?_, List.nodup_cons.mpr ⟨?_, rowNames_nodup hxy h.2⟩⟩
    · simp only [List.mem_cons, not_or]
      refine ⟨hne _ _, fun hm => ?_⟩
      obtain ⟨v, hv, e | e⟩ := rowNames_head hm
      · exact h.1 (List.mem_map.mpr ⟨v, hv, (label_inj e).symm⟩)
      · exact hne _ _ e
    · intro hm
      obtain ⟨v, hv, e | e⟩ := rowNames_head hm
      · exact hne _ _ e.symm
      · exact h.1 (List.mem_map.mpr ⟨v, hv, (label_inj e).symm⟩)

theorem rowNames_not {md : Bytes → Bytes} {x y : UInt8} {l : List Bytes} (n : Bytes)
    (h : n.head? ≠ some x ∧ n.head? ≠ some y ∨ n[1]? ≠ some 95) : n ∉ rowNames md [x] [y] l := by
  intro hm
  obtain ⟨u, _, e | e⟩ := rowNames_head hm
  · rw [e] at h; unfold elementLabel at h; simp at h
  · rw [e] at h; unfold elementLabel at h; simp at h

theorem rowNames_length (md : Bytes → Bytes) (a b : Bytes) : ∀ l : List Bytes, (rowNames md a b l).length = 2 * l.length
  | [] => rfl
  | u :: l => by
    have e : rowNames md a b (u :: l) = elementLabel a (hashKey md u) :: elementLabel b (hashKey md u) :: rowNames md a b l := rfl
    rw [e, List.length_cons, List.length_cons, rowNames_length md a b l, List.length_cons]; omega

/-- Nothing is there in an empty container. -/
theorem filter_empty (N : List Bytes) :
    (N.filter fun n => (SMap.find n ([] : Container G1 G2 GT)).isNone) = N := by
  rw [List.filter_eq_self]; intro _ _; rfl

theorem cpKeyNames_dedup (md : Bytes → Bytes) (l : List Bytes) :
    (cpKeyNames md l).dedup.length = 3 + (l.map (hashKey md)).dedup.length := by
  have h0 : ∀ (x : Bytes), x.head? ≠ some 75 ∨ x.length < 2 →
      x ∉ l.map fun a => elementLabel b!"KX" (hashKey md a) := by
    intro x hx hm
    obtain ⟨a, _, rfl⟩ := List.mem_map.mp hm
    unfold elementLabel at hx
    simp at hx
  have e : (l.map fun a => elementLabel b!"KX" (hashKey md a)) = (l.map (hashKey md)).map (elementLabel b!"KX") := by
    rw [List.map_map]; rfl
  unfold cpKeyNames
  rw [List.dedup_cons_of_notMem, List.dedup_cons_of_notMem, List.dedup_cons_of_notMem, e,
    List.dedup_map_of_injective (fun _ _ => label_inj)]
  · simp only [List.length_cons, List.length_map]; omega
  · exact h0 _ (by decide)
  · simp only [List.mem_cons, not_or]
    exact ⟨by decide, h0 _ (by decide)⟩
  · simp only [List.mem_cons, not_or]
    exact ⟨by decide, by decide, h0 _ (by decide)⟩

theorem rowNames_perm (md : Bytes → Bytes) (a b : Bytes) : ∀ l : List Bytes,
    (rowNames md a b l).Perm ((l.map (hashKey md)).map (elementLabel a) ++ (l.map (hashKey md)).map (elementLabel b))
  | [] => .refl _
  | u :: l => by
    have e : rowNames md a b (u :: l) = elementLabel a (hashKey md u) :: elementLabel b (hashKey md u) :: rowNames md a b l := rfl
    rw [e]
    simp only [List.map_cons, List.cons_append]
    refine List.Perm.cons _ ?_
    exact ((rowNames_perm md a b l).cons _).trans List.perm_middle.symm

theorem rowNames_dedup {md : Bytes → Bytes} {x y : UInt8} (hxy : x ≠ y) (l : List Bytes) :
    (rowNames md [x] [y] l).dedup.length = 2 * (l.map (hashKey md)).dedup.length := by
  rw [((rowNames_perm md [x] [y] l).dedup).length_eq]
  have hd : List.Disjoint ((l.map (hashKey md)).map (elementLabel [x])) ((l.map (hashKey md)).map (elementLabel [y])) := by
    intro n h1 h2
    obtain ⟨u, _, rfl⟩ := List.mem_map.mp h1
    obtain ⟨v, _, e⟩ := List.mem_map.mp h2
    unfold elementLabel at e; simp at e; exact hxy e.1.symm
  rw [List.Disjoint.dedup_append hd, List.length_append, List.dedup_map_of_injective (fun _ _ => label_inj),
    List.dedup_map_of_injective (fun _ _ => label_inj), List.length_map, List.length_map]
  omega

theorem kpKeyNames_dedup (md : Bytes → Bytes) (l : List Bytes) :
    (b!"input" :: rowNames md b!"D" b!"d" l).dedup.length = 1 + 2 * (l.map (hashKey md)).dedup.length := by
  rw [List.dedup_cons_of_notMem (rowNames_not _ (by decide)), List.length_cons, rowNames_dedup (by decide)]
  omega

theorem kpKeyNames_nodup {md : Bytes → Bytes} {l : List Bytes} (h : (l.map (hashKey md)).Nodup) :
    (b!"input" :: rowNames md b!"D" b!"d" l).Nodup :=
  List.nodup_cons.mpr ⟨rowNames_not _ (by decide), rowNames_nodup (by decide) h⟩

theorem ctNames_nodup {md : Bytes → Bytes} {sch : Scheme} {input : FInput} {l : List Bytes} (h : (l.map (hashKey md)).Nodup)
    (h' : ((inputAttrs input).map (hashKey md)).Nodup) : (ctNames md sch input l).Nodup := by
  unfold ctNames
  split
  · have h1 := rowNames_nodup (x := 68) (y := 67) (md := md) (by decide) h
    refine List.nodup_append.mpr ⟨List.nodup_cons.mpr ⟨?_, List.nodup_cons.mpr ⟨rowNames_not _ (by decide), h1⟩⟩,
      by simp, ?_⟩
    · simp only [List.mem_cons, not_or]
      exact ⟨by decide, rowNames_not _ (by decide)⟩
    · intro a ha b hb
      simp only [List.mem_cons, List.not_mem_nil, or_false] at hb
      subst hb
      simp only [List.mem_cons] at ha
      rcases ha with rfl | rfl | ha
      · decide
      · decide
      · rintro rfl; exact rowNames_not _ (by decide) ha
  · rename_i al
    have h0 : ∀ (x : Bytes), x.head? ≠ some 67 ∨ x[1]? ≠ some 95 →
        x ∉ al.attrs.map fun a => elementLabel b!"C" (hashKey md a) := by
      intro x hx hm
      obtain ⟨a, _, rfl⟩ := List.mem_map.mp hm
      unfold elementLabel at hx
      simp at hx
    have h1 : (al.attrs.map fun a => elementLabel b!"C" (hashKey md a)).Nodup := by
      have e : (al.attrs.map fun a => elementLabel b!"C" (hashKey md a)) =
          (al.attrs.map (hashKey md)).map (elementLabel b!"C") := by
        rw [List.map_map]; rfl
      rw [e]
      exact List.Nodup.map (fun _ _ => label_inj) h'
    rw [List.cons_append, List.append_assoc]
    refine List.nodup_cons.mpr ⟨?_, List.nodup_append.mpr ⟨h1, by decide, ?_⟩⟩
    · intro hm
      rcases List.mem_append.mp hm with hm | hm
      · exact h0 _ (by decide) hm
      · revert hm; decide
    · intro a ha b hb
      rintro rfl
      simp only [List.cons_append, List.nil_append, List.mem_cons, List.not_mem_nil, or_false] at hb
      rcases hb with rfl | rfl
      · exact h0 _ (by decide) ha
      · exact h0 _ (by decide) ha
  · exact List.nodup_nil

end Mem
end Abe
