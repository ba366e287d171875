import Verif.Proof.ContextMemory
/-! The bodies of the operations: what they do to the containers they use, as in Model/SchemeObjects, and what they leave behind. -/
set_option linter.unusedSimpArgs false
set_option linter.unusedSectionVars false
set_option autoImplicit false
namespace Abe
namespace Cm
open Live (Mut lift asZP asG1 asG2 asGT asBytes Two mapRes)
open Scheme
open Mem (Store Cell Heap Ptrs SimR Agree WRel Values at_ Ghost stored under)
variable {G1 G2 GT : Type}

/-! ## Two objects that are read and one that is filled -/

/-- Two objects, and the one that is filled with what has been left behind. -/
abbrev Desk (G1 G2 GT : Type) := Two G1 G2 GT × Ghost G1 G2 GT

/-- `getComponent` of the first. -/
def get1 (n : Bytes) : Mut (Desk G1 G2 GT) (Obj G1 G2 GT) := fun u =>
  ((Container.getComponent u.1.1 n).1, ((Container.getComponent u.1.1 n).2, u.1.2), u.2)

/-- `getComponent` of the second. -/
def get2 (n : Bytes) : Mut (Desk G1 G2 GT) (Obj G1 G2 GT) := fun u =>
  ((Container.getComponent u.1.2 n).1, (u.1.1, (Container.getComponent u.1.2 n).2), u.2)

/-- The object that is filled. -/
def fill : Store G1 G2 GT (Desk G1 G2 GT) where
  set n o := fun u => ((Mem.onGhost.set n o u.2).1, u.1, (Mem.onGhost.set n o u.2).2)
  buf b := fun u => (.ok (), u.1, u.2.1, u.2.2 ++ [.buf b])

theorem get_cases (c : Container G1 G2 GT) (n : Bytes) :
    (∃ o, Container.getComponent c n = (.ok o, c)) ∨ ∃ c', Container.getComponent c n = (.throw .elementNotFound, c') := by
  unfold Container.getComponent
  cases SMap.find n c with
  | none => exact .inr ⟨_, rfl⟩
  | some o => cases o <;> first | exact .inr ⟨_, rfl⟩ | exact .inl ⟨_, rfl⟩

/-! ## As in Model/SchemeObjects -/

theorem mut_bind {σ α β : Type} (m : Mut σ α) (f : α → Mut σ β) : (m >>= f) = Mut.bind m f := rfl

section Live
variable {α β γ : Type} {mk : γ → Container G1 G2 GT → β}

/-- A body on the desk does what the body on two values does. -/
def Eqv {β γ : Type} (mk : γ → Container G1 G2 GT → β) (m : Mut (Desk G1 G2 GT) γ) (n : Mut (Two G1 G2 GT) β) (s : Two G1 G2 GT)
    (g : Ghost G1 G2 GT) : Prop :=
  (n s).1 = mapRes (fun a => mk a (m (s, g)).2.2.1) (m (s, g)).1 ∧ (n s).2 = (m (s, g)).2.1

variable {s : Two G1 G2 GT} {g : Ghost G1 G2 GT}

theorem Eqv.get1 {n : Bytes} {f : Obj G1 G2 GT → Mut (Desk G1 G2 GT) γ} {h : Obj G1 G2 GT → Mut (Two G1 G2 GT) β}
    (e : ∀ o, Eqv mk (f o) (h o) s g) : Eqv mk (get1 n >>= f) (Live.fst n >>= h) s g := by
  unfold Eqv
  simp only [mut_bind]
  unfold Mut.bind Live.fst Cm.get1
  rcases get_cases s.1 n with ⟨o, ho⟩ | ⟨c', ho⟩
  · simp only [ho]; exact e o
  · simp only [ho]; exact ⟨rfl, trivial⟩

theorem Eqv.get2 {n : Bytes} {f : Obj G1 G2 GT → Mut (Desk G1 G2 GT) γ} {h : Obj G1 G2 GT → Mut (Two G1 G2 GT) β}
    (e : ∀ o, Eqv mk (f o) (h o) s g) : Eqv mk (get2 n >>= f) (Live.snd n >>= h) s g := by
  unfold Eqv
  simp only [mut_bind]
  unfold Mut.bind Live.snd Cm.get2
  rcases get_cases s.2 n with ⟨o, ho⟩ | ⟨c', ho⟩
  · simp only [ho]; exact e o
  · simp only [ho]; exact ⟨rfl, trivial⟩

theorem Eqv.lift {r : Res α} {f : α → Mut (Desk G1 G2 GT) γ} {h : α → Mut (Two G1 G2 GT) β}
    (e : ∀ a, Eqv mk (f a) (h a) s g) : Eqv mk (lift r >>= f) (Live.lift r >>= h) s g := by
  unfold Eqv
  simp only [mut_bind]
  unfold Mut.bind Live.lift
  cases r with
  | ok a => exact e a
  | throw x => exact ⟨rfl, rfl⟩
  | ub => exact ⟨rfl, rfl⟩
  | abort => exact ⟨rfl, rfl⟩

theorem Eqv.set {n : Bytes} {o : Obj G1 G2 GT} (ho : o ≠ .null) {f : Unit → Mut (Desk G1 G2 GT) γ}
    {h : Container G1 G2 GT → Mut (Two G1 G2 GT) β}
    (e : ∀ g' : Ghost G1 G2 GT, Eqv mk (f ()) (h g'.1) s g') :
    Eqv mk (fill.set n o >>= f) (Live.lift (Container.setComponent g.1 n o) >>= h) s g := by
  unfold Eqv
  simp only [mut_bind]
  simp only [Mut.bind, Live.lift, fill, Mem.ghost_set ho, Mem.set_stored ho]
  exact e (SMap.insert n (stored o) g.1, g.2 ++ under g.1 n)

theorem Eqv.buf {b : Bytes} {f : Unit → Mut (Desk G1 G2 GT) γ} {h : Mut (Two G1 G2 GT) β}
    (e : ∀ g' : Ghost G1 G2 GT, g'.1 = g.1 → Eqv mk (f ()) h s g') : Eqv mk (fill.buf b >>= f) h s g := by
  unfold Eqv
  simp only [mut_bind]
  simp only [Mut.bind, fill]
  exact e (g.1, g.2 ++ [.buf b]) rfl

theorem Eqv.done {a : γ} {b : β} (e : mk a g.1 = b) : Eqv mk (Live.lift (.ok a)) (Live.lift (.ok b)) s g := by
  subst e; exact ⟨rfl, rfl⟩

theorem Eqv.fail {e : Err} : Eqv mk (Live.lift (.throw e)) (Live.lift (.throw e)) s g := ⟨rfl, rfl⟩

theorem lift_bind {σ : Type} (r : Res α) (f : α → Res β) : (lift (r >>= f) : Mut σ β) = (lift r >>= fun a => lift (f a)) := by
  funext s
  show _ = Mut.bind _ _ s
  unfold Mut.bind lift
  cases r <;> rfl

theorem mut_assoc {σ : Type} (m : Mut σ α) (f : α → Mut σ β) (h : β → Mut σ γ) :
    ((m >>= f) >>= h) = (m >>= fun a => f a >>= h) := by
  funext s
  show Mut.bind (Mut.bind m f) h s = Mut.bind m (fun a => Mut.bind (f a) h) s
  unfold Mut.bind
  rcases m s with ⟨a, s'⟩
  cases a <;> rfl

theorem mut_ok {σ : Type} (a : α) (f : α → Mut σ β) : (lift (.ok a) >>= f) = f a := rfl

theorem mut_pure {σ : Type} (m : Mut σ α) : (m >>= fun a => lift (.ok a)) = m := by
  funext s
  show Mut.bind m _ s = _
  unfold Mut.bind
  rcases m s with ⟨a, s'⟩
  cases a <;> rfl

end Live

section Schemes
variable {q : Nat} [Fact q.Prime]
variable [AddCommGroup G1] [Module (ZMod q) G1] [AddCommGroup G2] [Module (ZMod q) G2] [AddCommGroup GT]
  [Module (ZMod q) GT]
variable {s : Two G1 G2 GT}

/-- The filled container is the result. -/
abbrev justC : Unit → Container G1 G2 GT → Container G1 G2 GT := fun _ d => d

theorem n1 (x : G1) : (.g1 x : Obj G1 G2 GT) ≠ .null := by intro e; cases e
theorem n2 (x : G2) : (.g2 x : Obj G1 G2 GT) ≠ .null := by intro e; cases e
theorem nT (x : GT) : (.gt x : Obj G1 G2 GT) ≠ .null := by intro e; cases e
theorem nB (x : Bytes) : (.bytes x : Obj G1 G2 GT) ≠ .null := by intro e; cases e
theorem nA (x : AttrList) : (.attrs x : Obj G1 G2 GT) ≠ .null := by intro e; cases e
theorem nZ (x : Nat) : (.zp x : Obj G1 G2 GT) ≠ .null := by intro e; cases e

theorem eqv_cpKeyLoop (env : Env G1 G2 GT) (k : Option Bytes) (t : ZMod q) : ∀ (l : List Bytes) (g : Ghost G1 G2 GT),
    Eqv justC (Mem.cpKeyLoop fill env k t l) (lift (Scheme.cpKeyLoop env k t l g.1)) s g
  | [], _ => .done rfl
  | a :: l, g => by
    unfold Mem.cpKeyLoop Scheme.cpKeyLoop
    simp only [lift_bind]
    exact .lift fun _ => .set (n1 _) fun g' => eqv_cpKeyLoop env k t l g'

theorem eqv_cpKeyBody (env : Env G1 G2 GT) (c c' : Ctx G1 G2 GT) (hc : c'.ready = c.ready) (l : AttrList) (t : ZMod q)
    (L : List (Cell G1 G2 GT)) :
    Eqv justC (cpKeyBody get1 get2 fill env c' l t) (Live.cpKeyBody env c l t) s ([], L) := by
  have hu : usePairing c' = usePairing c := by unfold usePairing; rw [hc]
  unfold cpKeyBody Live.cpKeyBody
  rw [hu]
  exact .get1 fun _ => .set (g := ([], L)) (nA _) fun _ => .lift fun _ => .get2 fun _ => .lift fun _ => .get1 fun _ => .lift fun _ => .get2 fun _ =>
    .lift fun _ => .set (n2 _) fun _ => .get1 fun _ => .lift fun _ => .set (n2 _) fun g => eqv_cpKeyLoop env _ t _ g

theorem eqv_kpKeyLoop (env : Env G1 G2 GT) (k : Option Bytes) (r : Nat → ZMod q) :
    ∀ (rows : List (Bytes × (Bytes × ZMod q))) (i : Nat) (g : Ghost G1 G2 GT),
    Eqv justC (kpKeyLoop get1 fill env k r i rows) (Live.kpKeyLoop env k r i rows g.1) s g
  | [], _, _ => .done rfl
  | row :: rows, i, g => by
    unfold kpKeyLoop Live.kpKeyLoop
    exact .get1 fun _ => .lift fun _ => .lift fun _ => .get1 fun _ => .lift fun _ => .set (n1 _) fun _ => .set (n2 _) fun g' =>
      eqv_kpKeyLoop env k r rows (i + 1) g'

theorem eqv_kpKeyBody (env : Env G1 G2 GT) (c c' : Ctx G1 G2 GT) (hc : c'.ready = c.ready) (p : Policy) (tape r : Nat → ZMod q)
    (L : List (Cell G1 G2 GT)) :
    Eqv justC (kpKeyBody get1 get2 fill env c' p tape r) (Live.kpKeyBody env c p tape r) s ([], L) := by
  have hu : usePairing c' = usePairing c := by unfold usePairing; rw [hc]
  unfold kpKeyBody Live.kpKeyBody
  rw [hu]
  refine .get1 fun _ => .set (g := ([], L)) (nB _) fun g' => .get2 fun _ => .lift fun _ => .lift fun sh => ?_
  cases sh.1.results with
  | nil => exact .done rfl
  | cons x xs => exact .lift fun _ => eqv_kpKeyLoop env _ r _ _ g'

theorem eqv_keyBody (env : Env G1 G2 GT) (sch : Scheme) (c c' : Ctx G1 G2 GT) (hc : c'.ready = c.ready) (input : FInput) (r : Rand q)
    (L : List (Cell G1 G2 GT)) :
    Eqv justC (keyBody get1 get2 fill env sch c' input r) (Live.keyBody env sch c input r) s ([], L) := by
  cases sch <;> cases input
  all_goals first | exact eqv_cpKeyBody env c c' hc _ _ L | exact eqv_kpKeyBody env c c' hc _ _ _ L | exact .fail

/-- The key and the ciphertext. -/
abbrev withCt (a : UInt8) (ct : Ciphertext G1 G2 GT) : Bytes → Container G1 G2 GT → Bytes × Ciphertext G1 G2 GT :=
  fun K d => (K, { ct with alg := a, comps := d })

theorem eqv_cpEncLoop {β : Type} {mk : Bytes → Container G1 G2 GT → β} (env : Env G1 G2 GT) (k : Option Bytes) (r : Nat → ZMod q)
    {f : Unit → Mut (Desk G1 G2 GT) Bytes} {h : Container G1 G2 GT → Mut (Two G1 G2 GT) β}
    (e : ∀ g : Ghost G1 G2 GT, Eqv mk (f ()) (h g.1) s g) :
    ∀ (rows : List (Bytes × (Bytes × ZMod q))) (i : Nat) (g : Ghost G1 G2 GT),
    Eqv mk (cpEncLoop get1 fill env k r i rows >>= f) (Live.cpEncLoop env k r i rows g.1 >>= h) s g
  | [], _, g => e g
  | row :: rows, i, g => by
    unfold cpEncLoop Live.cpEncLoop
    simp only [mut_assoc]
    exact .get1 fun _ => .lift fun _ => .set (n2 _) fun _ => .lift fun _ => .get1 fun _ => .lift fun _ => .set (n1 _) fun g' =>
      eqv_cpEncLoop env k r e rows (i + 1) g'

theorem eqv_symKey {β : Type} {mk : Bytes → Container G1 G2 GT → β} (env : Env G1 G2 GT) (x : GT) (len : Nat)
    {h : Bytes → Mut (Two G1 G2 GT) β} {g : Ghost G1 G2 GT} (e : ∀ K, h K = lift (.ok (mk K g.1))) :
    Eqv mk (Mem.symKey fill env x len) (lift (symKeyOf env x len) >>= h) s g := by
  unfold Mem.symKey
  refine .buf fun g' hg => ?_
  have := Eqv.lift (mk := mk) (s := s) (g := g') (r := symKeyOf env x len) (f := fun K => lift (.ok K)) (h := h)
    fun K => by rw [e K, ← hg]; exact .done rfl
  rwa [mut_pure] at this

theorem eqv_cpEncBody (env : Env G1 G2 GT) (c c' : Ctx G1 G2 GT) (hc : c'.ready = c.ready) (p : Policy) (len : Nat) (r : Rand q)
    (ct : Ciphertext G1 G2 GT) (L : List (Cell G1 G2 GT)) :
    Eqv (withCt c.alg ct) (cpEncBody get1 fill env c' p len r) (Live.cpEncBody env c p len r ct) s (ct.comps, L) := by
  have hu : usePairing c' = usePairing c := by unfold usePairing; rw [hc]
  unfold cpEncBody Live.cpEncBody
  rw [hu]
  exact .get1 fun _ => .lift fun _ => .get1 fun _ => .lift fun _ => .lift fun _ => .set (g := (ct.comps, L)) (nB _) fun _ => .get1 fun _ => .lift fun _ =>
    .set (n1 _) fun g => eqv_cpEncLoop env _ r.r (fun _ => eqv_symKey env _ len fun _ => rfl) _ 0 g

theorem eqv_kpEncLoop {β : Type} {mk : Bytes → Container G1 G2 GT → β} (env : Env G1 G2 GT) (k : Option Bytes) (t : ZMod q)
    {f : Unit → Mut (Desk G1 G2 GT) Bytes} {h : Container G1 G2 GT → Mut (Two G1 G2 GT) β}
    (e : ∀ g : Ghost G1 G2 GT, Eqv mk (f ()) (h g.1) s g) : ∀ (l : List Bytes) (g : Ghost G1 G2 GT),
    Eqv mk (Mem.kpEncLoop fill env k t l >>= f) (lift (Scheme.kpEncLoop env k t l g.1) >>= h) s g
  | [], g => e g
  | a :: l, g => by
    unfold Mem.kpEncLoop Scheme.kpEncLoop
    simp only [lift_bind, mut_assoc]
    exact .lift fun _ => .set (n1 _) fun g' => eqv_kpEncLoop env k t e l g'

theorem eqv_kpEncBody (env : Env G1 G2 GT) (c c' : Ctx G1 G2 GT) (hc : c'.ready = c.ready) (l : AttrList) (len : Nat) (r : Rand q)
    (ct : Ciphertext G1 G2 GT) (L : List (Cell G1 G2 GT)) :
    Eqv (withCt c.alg ct) (kpEncBody get1 fill env c' l len r) (Live.kpEncBody env c l len r ct) s (ct.comps, L) := by
  have hu : usePairing c' = usePairing c := by unfold usePairing; rw [hc]
  unfold kpEncBody Live.kpEncBody
  rw [hu]
  exact .get1 fun _ => .lift fun _ => .get1 fun _ => .lift fun _ => .get1 fun _ => .lift fun _ => .set (g := (ct.comps, L)) (n2 _) fun g =>
    eqv_kpEncLoop env _ r.x (fun _ => .set (nA _) fun _ => eqv_symKey env _ len fun _ => rfl) _ g

theorem eqv_encBody (env : Env G1 G2 GT) (sch : Scheme) (c c' : Ctx G1 G2 GT) (hc : c'.ready = c.ready) (input : FInput) (r : Rand q)
    (ct : Ciphertext G1 G2 GT) (L : List (Cell G1 G2 GT)) :
    Eqv (withCt c.alg ct) (encBody get1 fill env sch c' input r) (Live.encBody env sch c input r ct) s (ct.comps, L) := by
  cases sch <;> cases input
  all_goals first | exact eqv_cpEncBody env c c' hc _ _ r ct L | exact eqv_kpEncBody env c c' hc _ _ r ct L | exact .fail

/-- The result alone. -/
abbrev justR : Bytes → Container G1 G2 GT → Bytes := fun a _ => a

theorem eqv_cpDecLoop {β : Type} {mk : Bytes → Container G1 G2 GT → β} (env : Env G1 G2 GT) {g : Ghost G1 G2 GT}
    {f : G1 × List (G1 × G2) → Mut (Desk G1 G2 GT) Bytes} {h : G1 × List (G1 × G2) → Mut (Two G1 G2 GT) β}
    (e : ∀ x, Eqv mk (f x) (h x) s g) : ∀ (rows : List (Bytes × (Bytes × ZMod q))) (x : G1) (l : List (G1 × G2)),
    Eqv mk (cpDecLoop get1 get2 env rows x l >>= f) (Live.cpDecLoop env rows x l >>= h) s g
  | [], x, l => e (x, l)
  | row :: rows, x, l => by
    unfold cpDecLoop Live.cpDecLoop
    simp only [mut_assoc]
    exact .get1 fun _ => .get2 fun _ => .lift fun _ => .get2 fun _ => .lift fun _ => .lift fun _ => eqv_cpDecLoop env e rows _ _

theorem eqv_kpDecLoop {β : Type} {mk : Bytes → Container G1 G2 GT → β} (env : Env G1 G2 GT) {g : Ghost G1 G2 GT}
    {f : G1 × List (G1 × G2) → Mut (Desk G1 G2 GT) Bytes} {h : G1 × List (G1 × G2) → Mut (Two G1 G2 GT) β}
    (e : ∀ x, Eqv mk (f x) (h x) s g) : ∀ (rows : List (Bytes × (Bytes × ZMod q))) (x : G1) (l : List (G1 × G2)),
    Eqv mk (kpDecLoop get1 get2 env rows x l >>= f) (Live.kpDecLoop env rows x l >>= h) s g
  | [], x, l => e (x, l)
  | row :: rows, x, l => by
    unfold kpDecLoop Live.kpDecLoop
    simp only [mut_assoc]
    exact .get2 fun _ => .get1 fun _ => .get1 fun _ => .lift fun _ => .lift fun _ => .lift fun _ => eqv_kpDecLoop env e rows _ _

theorem Eqv.ite {β γ : Type} {mk : γ → Container G1 G2 GT → β} {g : Ghost G1 G2 GT} {p : Prop} [Decidable p]
    {m m' : Mut (Desk G1 G2 GT) γ} {n n' : Mut (Two G1 G2 GT) β} (h : Eqv mk m n s g) (h' : Eqv mk m' n' s g) :
    Eqv mk (if p then m else m') (if p then n else n') s g := by
  split
  · exact h
  · exact h'

theorem mut_ite_bind {σ α β : Type} {p : Prop} [Decidable p] (m m' : Mut σ α) (f : α → Mut σ β) :
    ((if p then m else m') >>= f) = if p then m >>= f else m' >>= f := by split <;> rfl

theorem mut_throw {σ α β : Type} (e : Err) (f : α → Mut σ β) : (lift (.throw e) >>= f) = lift (.throw e) := rfl

/-- Decapsulation followed by something. -/
theorem eqv_dec {β : Type} {mk : Bytes → Container G1 G2 GT → β} (env : Env G1 G2 GT) (sch : Scheme) (c c' : Ctx G1 G2 GT)
    (hc : c'.ready = c.ready) {f : Bytes → Mut (Desk G1 G2 GT) Bytes} {h : Bytes → Mut (Two G1 G2 GT) β}
    (tail : ∀ (K : Bytes) (g : Ghost G1 G2 GT), Eqv mk (f K) (h K) s g) (g : Ghost G1 G2 GT) :
    Eqv mk (decBody q get1 get2 fill env sch c' >>= f) (decapsulate q env sch c >>= h) s g := by
  have hu : usePairing c' = usePairing c := by unfold usePairing; rw [hc]
  have key : ∀ (x : GT) (g : Ghost G1 G2 GT), Eqv mk (Mem.symKey fill env x symKeyBytes >>= f)
      (lift (symKeyOf env x symKeyBytes) >>= h) s g := by
    intro x g
    unfold Mem.symKey
    rw [mut_assoc]
    exact .buf fun g' _ => .lift fun K => tail K g'
  cases sch with
  | cp =>
    show Eqv mk (cpDecBody q get1 get2 fill env c' symKeyBytes >>= _) (Live.cpDecBody q env c symKeyBytes >>= _) s g
    unfold cpDecBody Live.cpDecBody
    rw [hu]
    simp only [mut_assoc, mut_ite_bind, mut_throw]
    refine .get1 fun _ => .get2 fun _ => .lift fun _ => .lift fun _ => .lift fun _ => .lift fun _ => .ite .fail ?_
    exact eqv_cpDecLoop env (fun x => .lift fun _ => .lift fun _ => .get2 fun _ => .get1 fun _ => .get1 fun _ => .lift fun _ =>
      .lift fun _ => .lift fun _ => key _ _) _ _ _
  | kp =>
    show Eqv mk (kpDecBody q get1 get2 fill env c' symKeyBytes >>= _) (Live.kpDecBody q env c symKeyBytes >>= _) s g
    unfold kpDecBody Live.kpDecBody
    rw [hu]
    simp only [mut_assoc, mut_ite_bind, mut_throw]
    refine .get1 fun _ => .lift fun _ => .lift fun _ => .get2 fun _ => .lift fun _ => .lift fun _ => .ite .fail ?_
    exact eqv_kpDecLoop env (fun x => .lift fun _ => .lift fun _ => .get2 fun _ => .lift fun _ => key _ _) _ _ _

theorem eqv_decBody (env : Env G1 G2 GT) (sch : Scheme) (c c' : Ctx G1 G2 GT) (hc : c'.ready = c.ready) (g : Ghost G1 G2 GT) :
    Eqv justR (decBody q get1 get2 fill env sch c') (decapsulate q env sch c) s g := by
  have := eqv_dec (q := q) (mk := justR) (s := s) env sch c c' hc (f := fun K => lift (.ok K)) (h := fun K => lift (.ok K))
    (fun K g => .done rfl) g
  rwa [mut_pure, mut_pure] at this

theorem eqv_plainBody (env : Env G1 G2 GT) (sch : Scheme) (c c' : Ctx G1 G2 GT) (hc : c'.ready = c.ready) (g : Ghost G1 G2 GT) :
    Eqv justR (plainBody q get1 get2 fill env sch c') (Live.plainBody q env sch c) s g := by
  have e : Live.plainBody q env sch c = (decapsulate q env sch c >>= fun K => Live.snd b!"_ED" >>= fun enc => lift (notNull (asBytes enc)) >>= fun enc =>
      lift (BS.xorAssign enc (hashFromBytes env.md K enc.length schemeHashPrefix))) := by cases sch <;> rfl
  rw [e]
  refine eqv_dec (q := q) env sch c c' hc (fun K g => ?_) g
  refine .get2 fun _ => .lift fun enc => ?_
  have := Eqv.lift (mk := justR) (s := s) (g := g) (r := BS.xorAssign enc (hashFromBytes env.md K enc.length schemeHashPrefix))
    (f := fun K => lift (.ok K)) (h := fun K => lift (.ok K)) fun K => .done rfl
  rwa [mut_pure, mut_pure] at this

end Schemes
end Cm
end Abe
