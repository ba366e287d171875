import Verif.Proof.ContextMemoryInv
/-! What the bodies leave behind. -/
set_option linter.unusedSimpArgs false
set_option linter.unusedSectionVars false
set_option autoImplicit false
namespace Abe
namespace Cm
open Live (Mut lift asZP asG1 asG2 asGT asBytes Two mapRes)
open Scheme
open Mem (Store Cell Heap Ptrs SimR Agree WRel Values at_ Ghost stored under overwritten putAll)
variable {G1 G2 GT : Type}

/-- The call succeeded. -/
def isOk {α : Type} : Res α → Bool
  | .ok _ => true
  | _ => false

/-- From `u`, components with names from the front of `N` are set, all of them on success, and on success `b` buffers are left
behind. -/
def TrRes {α : Type} (N : List Bytes) (b : Nat) (u : Desk G1 G2 GT) (x : Res α × Desk G1 G2 GT) : Prop :=
  ∃ (S : List (Bytes × Obj G1 G2 GT)) (B : List (Cell G1 G2 GT)),
    S.map (·.1) <+: N ∧ B.length = (if isOk x.1 then b else 0) ∧ (isOk x.1 = true → S.map (·.1) = N) ∧
    x.2.2.1 = putAll u.2.1 S ∧ x.2.2.2 = u.2.2 ++ overwritten u.2.1 S ++ B

/-- `TrRes` of a computation. -/
def TrAt {α : Type} (N : List Bytes) (b : Nat) (m : Mut (Desk G1 G2 GT) α) (u : Desk G1 G2 GT) : Prop := TrRes N b u (m u)

section
variable {α β : Type} {N N' : List Bytes} {b : Nat}

theorem TrAt.none {r : Res α} {u : Desk G1 G2 GT} : TrAt [] 0 (lift r) u :=
  ⟨[], [], by simp, by simp, by simp, rfl, by simp [Live.lift, overwritten]⟩

theorem TrAt.stop {m : Mut (Desk G1 G2 GT) α} {u : Desk G1 G2 GT} (h : isOk (m u).1 = false) (e : (m u).2.2 = u.2) : TrAt N b m u :=
  ⟨[], [], by simp, by simp [h], by simp [h], by rw [e]; rfl, by simp [e, overwritten]⟩

theorem TrAt.bind {m : Mut (Desk G1 G2 GT) α} {f : α → Mut (Desk G1 G2 GT) β} {u : Desk G1 G2 GT} (h : TrAt N 0 m u)
    (h' : ∀ a, (m u).1 = .ok a → TrAt N' b (f a) (m u).2) : TrAt (N ++ N') b (m >>= f) u := by
  obtain ⟨S, B, h1, h2, h3, h4, h5⟩ := h
  have hB : B = [] := by
    apply List.eq_nil_of_length_eq_zero
    rw [h2]; split <;> rfl
  subst hB
  rw [List.append_nil] at h5
  show TrRes _ _ u (Mut.bind m f u)
  unfold Mut.bind
  rcases hm : m u with ⟨a, u'⟩
  rw [hm] at h3 h4 h5 h'
  simp only at h3 h4 h5 h'
  have stop : ∀ r : Res β, isOk r = false → TrRes (N ++ N') b u (r, u') := fun r hr =>
    ⟨S, [], h1.trans (List.prefix_append _ _), by simp [hr], by simp [hr], h4, by rw [List.append_nil]; exact h5⟩
  cases a with
  | throw e => exact stop _ rfl
  | ub => exact stop _ rfl
  | abort => exact stop _ rfl
  | ok a =>
    obtain ⟨S', B', g1, g2, g3, g4, g5⟩ := h' a rfl
    have k1 := h3 rfl
    refine ⟨S ++ S', B', ?_, g2, ?_, ?_, ?_⟩
    · rw [List.map_append, k1]; exact (List.prefix_append_right_inj _).mpr g1
    · intro hx
      rw [List.map_append, k1, g3 hx]
    · rw [Mem.putAll_append, ← h4]; exact g4
    · simp only [g5, h5, h4, Mem.overwritten_append, List.append_assoc]

theorem TrAt.get1 {n : Bytes} {f : Obj G1 G2 GT → Mut (Desk G1 G2 GT) β} {u : Desk G1 G2 GT} (h : ∀ o, TrAt N b (f o) u) :
    TrAt N b (get1 n >>= f) u := by
  rcases get_cases u.1.1 n with ⟨o, ho⟩ | ⟨c', ho⟩
  · have e : (Cm.get1 n >>= f) u = f o u := by
      simp only [mut_bind, Mut.bind, Cm.get1, ho]
    have := h o
    unfold TrAt at this ⊢
    rw [e]; exact this
  · have e : (Cm.get1 n >>= f) u = (.throw .elementNotFound, (c', u.1.2), u.2) := by
      simp only [mut_bind, Mut.bind, Cm.get1, ho]
    exact .stop (by rw [e]; rfl) (by rw [e])

theorem TrAt.get2 {n : Bytes} {f : Obj G1 G2 GT → Mut (Desk G1 G2 GT) β} {u : Desk G1 G2 GT} (h : ∀ o, TrAt N b (f o) u) :
    TrAt N b (get2 n >>= f) u := by
  rcases get_cases u.1.2 n with ⟨o, ho⟩ | ⟨c', ho⟩
  · have e : (Cm.get2 n >>= f) u = f o u := by
      simp only [mut_bind, Mut.bind, Cm.get2, ho]
    have := h o
    unfold TrAt at this ⊢
    rw [e]; exact this
  · have e : (Cm.get2 n >>= f) u = (.throw .elementNotFound, (u.1.1, c'), u.2) := by
      simp only [mut_bind, Mut.bind, Cm.get2, ho]
    exact .stop (by rw [e]; rfl) (by rw [e])

theorem TrAt.lift {r : Res α} {f : α → Mut (Desk G1 G2 GT) β} {u : Desk G1 G2 GT} (h : ∀ a, r = .ok a → TrAt N b (f a) u) :
    TrAt N b (lift r >>= f) u := by
  cases r with
  | ok a => exact h a rfl
  | throw e => exact .stop rfl rfl
  | ub => exact .stop rfl rfl
  | abort => exact .stop rfl rfl

theorem fill_set {n : Bytes} {o : Obj G1 G2 GT} (ho : o ≠ .null) (u : Desk G1 G2 GT) :
    fill.set n o u = (.ok (), u.1, SMap.insert n (stored o) u.2.1, u.2.2 ++ under u.2.1 n) := by
  simp only [fill, Mem.ghost_set ho]

theorem TrAt.one {n : Bytes} {o : Obj G1 G2 GT} (ho : o ≠ .null) {u : Desk G1 G2 GT} : TrAt [n] 0 (fill.set n o) u := by
  have e := fill_set (n := n) ho u
  exact ⟨[(n, o)], [], by simp, by simp, by simp, by rw [e]; rfl, by rw [e]; simp [overwritten]⟩

theorem TrAt.set {n : Bytes} {o : Obj G1 G2 GT} (ho : o ≠ .null) {f : Unit → Mut (Desk G1 G2 GT) β} {u : Desk G1 G2 GT}
    (h : ∀ u', TrAt N b (f ()) u') : TrAt (n :: N) b (fill.set n o >>= f) u :=
  (TrAt.one ho).bind fun _ _ => h _

theorem TrAt.ite {p : Prop} [Decidable p] {m m' : Mut (Desk G1 G2 GT) α} {u : Desk G1 G2 GT} (h : TrAt N b m u) (h' : TrAt N b m' u) :
    TrAt N b (if p then m else m') u := by
  split
  · exact h
  · exact h'

end

section Schemes
variable {q : Nat} [Fact q.Prime]
variable [AddCommGroup G1] [Module (ZMod q) G1] [AddCommGroup G2] [Module (ZMod q) G2] [AddCommGroup GT]
  [Module (ZMod q) GT]

theorem tr_cpKeyLoop (env : Env G1 G2 GT) (k : Option Bytes) (t : ZMod q) : ∀ (l : List Bytes) (u : Desk G1 G2 GT),
    TrAt (l.map fun a => elementLabel b!"KX" (hashKey env.md a)) 0 (Mem.cpKeyLoop fill env k t l) u
  | [], _ => .none
  | _ :: l, _ => .lift fun _ _ => .set (n1 _) fun u' => tr_cpKeyLoop env k t l u'

theorem tr_cpKeyBody (env : Env G1 G2 GT) (c : Ctx G1 G2 GT) (l : AttrList) (t : ZMod q) (u : Desk G1 G2 GT) :
    TrAt (Mem.cpKeyNames env.md l.attrs) 0 (cpKeyBody get1 get2 fill env c l t) u :=
  .get1 fun _ => .set (nA _) fun _ => .lift fun _ _ => .get2 fun _ => .lift fun _ _ => .get1 fun _ => .lift fun _ _ => .get2 fun _ =>
    .lift fun _ _ => .set (n2 _) fun _ => .get1 fun _ => .lift fun _ _ => .set (n2 _) fun u' => tr_cpKeyLoop env _ t _ u'

theorem tr_kpKeyLoop (env : Env G1 G2 GT) (k : Option Bytes) (r : Nat → ZMod q) :
    ∀ (rows : List (Bytes × (Bytes × ZMod q))) (i : Nat) (u : Desk G1 G2 GT),
    TrAt (Mem.rowNames env.md b!"D" b!"d" (rows.map (·.1))) 0 (kpKeyLoop get1 fill env k r i rows) u
  | [], _, _ => .none
  | _ :: rows, i, _ => .get1 fun _ => .lift fun _ _ => .lift fun _ _ => .get1 fun _ => .lift fun _ _ => .set (n1 _) fun _ => .set (n2 _) fun u' =>
      tr_kpKeyLoop env k r rows (i + 1) u'

theorem tr_kpKeyBody (env : Env G1 G2 GT) (c : Ctx G1 G2 GT) (p : Policy) (tape r : Nat → ZMod q) (u : Desk G1 G2 GT) :
    ∃ y : ZMod q, TrAt (b!"input" :: Mem.rowNames env.md b!"D" b!"d" (Mem.sharedNames (shareSecret env.ndebug {} (some p) y tape))) 0
      (kpKeyBody get1 get2 fill env c p tape r) u := by
  have tail : ∀ (o : Obj G1 G2 GT) (y : Nat) (u : Desk G1 G2 GT),
      TrAt (Mem.rowNames env.md b!"D" b!"d" (Mem.sharedNames (shareSecret env.ndebug {} (some p) (y : ZMod q) tape))) 0
        (lift (shareSecret env.ndebug {} (some p) (y : ZMod q) tape) >>= fun sh => match sh.1.results with
          | [] => lift (.ok ())
          | rows => lift (usePairing c) >>= fun _ => kpKeyLoop get1 fill env (asBytes o) r 0 rows) u := by
    intro o y u
    refine .lift fun sh hsh => ?_
    rw [hsh]
    simp only [Mem.sharedNames]
    cases sh.1.results with
    | nil => exact .none
    | cons x xs => exact .lift fun _ _ => tr_kpKeyLoop env _ r _ _ _
  rcases get_cases u.1.2 b!"y" with ⟨oy, hy⟩ | ⟨c', hy⟩
  · cases hz : asZP oy with
    | some y =>
      refine ⟨y, .get1 fun o => TrAt.bind (N := [b!"input"]) (.one (nB _)) fun _ _ => ?_⟩
      rw [fill_set (nB _)]
      have e : ∀ (f : Obj G1 G2 GT → Mut (Desk G1 G2 GT) Unit) (u' : Desk G1 G2 GT), u'.1 = u.1 → (Cm.get2 b!"y" >>= f) u' = f oy u' := by
        intro f u' hu
        rcases u' with ⟨x, y⟩
        simp only at hu; subst hu
        simp only [mut_bind, Mut.bind, Cm.get2, hy]
      have := tail o y (u.1, SMap.insert b!"input" (stored (.bytes p.compact)) u.2.1, u.2.2 ++ under u.2.1 b!"input")
      unfold TrAt at this ⊢
      show TrRes _ _ _ ((Cm.get2 b!"y" >>= _) _)
      rw [e _ (u.1, SMap.insert b!"input" (stored (.bytes p.compact)) u.2.1, u.2.2 ++ under u.2.1 b!"input") rfl, hz]
      exact this
    | none =>
      refine ⟨0, .get1 fun o => TrAt.bind (N := [b!"input"]) (.one (nB _)) fun _ _ => ?_⟩
      rw [fill_set (nB _)]
      refine .stop ?_ ?_
      · simp only [mut_bind, Mut.bind, Cm.get2, hy, hz, deref, lift]; rfl
      · simp only [mut_bind, Mut.bind, Cm.get2, hy, hz, deref, lift]
  · refine ⟨0, .get1 fun o => TrAt.bind (N := [b!"input"]) (.one (nB _)) fun _ _ => ?_⟩
    rw [fill_set (nB _)]
    refine .stop ?_ ?_
    · simp only [mut_bind, Mut.bind, Cm.get2, hy]; rfl
    · simp only [mut_bind, Mut.bind, Cm.get2, hy]

/-- The buffer of a session key: 32 bytes are always derived. -/
theorem tr_symKey (env : Env G1 G2 GT) (x : GT) (u : Desk G1 G2 GT) : TrAt [] 1 (Mem.symKey fill env x symKeyBytes) u :=
  ⟨[], [.buf (env.wT x)], by simp, rfl, fun _ => rfl, rfl, by
    show u.2.2 ++ _ = _
    simp [overwritten]⟩

theorem tr_cpEncLoop (env : Env G1 G2 GT) (k : Option Bytes) (r : Nat → ZMod q) :
    ∀ (rows : List (Bytes × (Bytes × ZMod q))) (i : Nat) (u : Desk G1 G2 GT),
    TrAt (Mem.rowNames env.md b!"D" b!"C" (rows.map (·.1))) 0 (cpEncLoop get1 fill env k r i rows) u
  | [], _, _ => .none
  | _ :: rows, i, _ => .get1 fun _ => .lift fun _ _ => .set (n2 _) fun _ => .lift fun _ _ => .get1 fun _ => .lift fun _ _ => .set (n1 _) fun u' =>
      tr_cpEncLoop env k r rows (i + 1) u'

theorem tr_cpEncBody (env : Env G1 G2 GT) (c : Ctx G1 G2 GT) (p : Policy) (r : Rand q) (u : Desk G1 G2 GT) :
    TrAt (b!"policy" :: b!"Cprime" :: Mem.rowNames env.md b!"D" b!"C"
        (Mem.sharedNames (shareSecret env.ndebug {} (some p) r.x r.tape))) 1 (cpEncBody get1 fill env c p symKeyBytes r) u := by
  refine .get1 fun k => .lift fun _ _ => .get1 fun _ => .lift fun A _ => .lift fun sh hsh => .set (nB _) fun _ => .get1 fun _ =>
    .lift fun _ _ => .set (n1 _) fun u' => ?_
  rw [hsh]
  have := (tr_cpEncLoop env (asBytes k) r.r sh.1.results 0 u').bind (fun _ _ => tr_symKey env (r.x • A) _)
  rw [List.append_nil] at this
  exact this

theorem tr_kpEncLoop (env : Env G1 G2 GT) (k : Option Bytes) (t : ZMod q) : ∀ (l : List Bytes) (u : Desk G1 G2 GT),
    TrAt (l.map fun a => elementLabel b!"C" (hashKey env.md a)) 0 (Mem.kpEncLoop fill env k t l) u
  | [], _ => .none
  | _ :: l, _ => .lift fun _ _ => .set (n1 _) fun u' => tr_kpEncLoop env k t l u'

theorem tr_kpEncBody (env : Env G1 G2 GT) (c : Ctx G1 G2 GT) (l : AttrList) (r : Rand q) (u : Desk G1 G2 GT) :
    TrAt (b!"Cpr2" :: ((l.attrs.map fun a => elementLabel b!"C" (hashKey env.md a)) ++ [b!"attributes"])) 1
      (kpEncBody get1 fill env c l symKeyBytes r) u := by
  refine .get1 fun k => .lift fun _ _ => .get1 fun _ => .lift fun Y _ => .get1 fun _ => .lift fun _ _ => .set (n2 _) fun u' => ?_
  exact (tr_kpEncLoop env (asBytes k) r.x l.attrs u').bind fun _ _ => .set (nA _) fun _ => tr_symKey env (r.x • Y) _

theorem tr_cpDecLoop (env : Env G1 G2 GT) : ∀ (rows : List (Bytes × (Bytes × ZMod q))) (x : G1) (l : List (G1 × G2)) (u : Desk G1 G2 GT),
    TrAt [] 0 (cpDecLoop get1 get2 env rows x l) u
  | [], _, _, _ => .none
  | _ :: rows, _, _, _ => .get1 fun _ => .get2 fun _ => .lift fun _ _ => .get2 fun _ => .lift fun _ _ => .lift fun _ _ =>
    tr_cpDecLoop env rows _ _ _

theorem tr_kpDecLoop (env : Env G1 G2 GT) : ∀ (rows : List (Bytes × (Bytes × ZMod q))) (x : G1) (l : List (G1 × G2)) (u : Desk G1 G2 GT),
    TrAt [] 0 (kpDecLoop get1 get2 env rows x l) u
  | [], _, _, _ => .none
  | _ :: rows, _, _, _ => .get2 fun _ => .get1 fun _ => .get1 fun _ => .lift fun _ _ => .lift fun _ _ => .lift fun _ _ =>
    tr_kpDecLoop env rows _ _ _

theorem tr_decBody (env : Env G1 G2 GT) (sch : Scheme) (c : Ctx G1 G2 GT) (u : Desk G1 G2 GT) :
    TrAt [] 1 (decBody q get1 get2 fill env sch c) u := by
  cases sch with
  | cp =>
    show TrAt [] 1 (cpDecBody q get1 get2 fill env c symKeyBytes) u
    unfold cpDecBody
    refine .get1 fun _ => .get2 fun _ => .lift fun _ _ => .lift fun _ _ => .lift fun _ _ => .lift fun _ _ => .ite (.stop rfl rfl) ?_
    exact (tr_cpDecLoop env _ _ _ _).bind fun _ _ => .lift fun _ _ => .lift fun _ _ => .get2 fun _ => .get1 fun _ => .get1 fun _ =>
      .lift fun _ _ => .lift fun _ _ => .lift fun _ _ => tr_symKey env _ _
  | kp =>
    show TrAt [] 1 (kpDecBody q get1 get2 fill env c symKeyBytes) u
    unfold kpDecBody
    refine .get1 fun _ => .lift fun _ _ => .lift fun _ _ => .get2 fun _ => .lift fun _ _ => .lift fun _ _ => .ite (.stop rfl rfl) ?_
    exact (tr_kpDecLoop env _ _ _ _).bind fun _ _ => .lift fun _ _ => .lift fun _ _ => .get2 fun _ => .lift fun _ _ => tr_symKey env _ _

end Schemes
end Cm
end Abe
