import Verif.Model.KeyMgr
import Verif.Proof.Scheme
/-! Facts about the key manager. -/
set_option linter.unusedSimpArgs false
set_option linter.unusedSectionVars false
set_option autoImplicit false
namespace Abe
variable {G1 G2 GT : Type}

theorem SMap.erase_absent {α : Type} {k : Bytes} {m : SMap α} (h : SMap.find k m = none) : SMap.erase k m = m := by
  induction m with
  | nil => rfl
  | cons p m ih =>
    obtain ⟨k', v⟩ := p
    simp only [SMap.find] at h
    split at h
    · simp at h
    · rename_i hne
      have : (k' != k) = true := by simp only [bne_iff_ne, ne_eq]; exact fun h => hne h.symm
      have e : SMap.erase k ((k', v) :: m) = (k', v) :: SMap.erase k m := by simp [SMap.erase, this]
      rw [e, ih h]

/-- A policy that can be evaluated. -/
def Policy.Ready (p : Policy) : Prop := ∃ t, p.root = some t ∧ AndOr t ∧ Fresh t

/-- An input that can be evaluated. -/
def FInput.Ready : FInput → Prop
  | .null => False
  | .attrs _ => True
  | .policy p => p.Ready

/-- Does the stored input open what was made for `f`? -/
def FInput.opens : FInput → FInput → Prop
  | .attrs l, .policy p => Scheme.Satisfies l.attrs p
  | .policy p, .attrs l => Scheme.Satisfies l.attrs p
  | _, _ => False

/-- The policy with the flags as `resetFlags` leaves them. -/
def Policy.reset (p : Policy) : Policy := { p with root := p.root.map resetFlags }
/-- The input with the flags as `resetFlags` leaves them. -/
def FInput.reset : FInput → FInput
  | .policy p => .policy p.reset
  | f => f
/-- The entry with the flags as `resetFlags` leaves them. -/
def Meta.reset (m : Meta) : Meta := { m with input := m.input.reset }

theorem Policy.Ready.reset {p : Policy} (h : p.Ready) : p.reset.Ready := by
  obtain ⟨t, h1, h2, h3⟩ := h
  exact ⟨resetFlags t, by simp [Policy.reset, h1], (AndOr_reset t).mpr h2, resetFlags_fresh t⟩

theorem FInput.Ready.reset {f : FInput} (h : f.Ready) : f.reset.Ready := by
  cases f with
  | null => exact h
  | attrs l => exact trivial
  | policy p => exact Policy.Ready.reset h

theorem FInput.opens_reset_left (g f : FInput) : g.reset.opens f ↔ g.opens f := by
  cases g <;> cases f <;> try exact Iff.rfl
  rename_i p l
  simp only [FInput.reset, FInput.opens, Scheme.Satisfies, Policy.reset]
  cases h : p.root with
  | none => simp
  | some t => simp [sat_reset]

theorem FInput.opens_reset_right (g f : FInput) : g.opens f.reset ↔ g.opens f := by
  cases g <;> cases f <;> try exact Iff.rfl
  rename_i l p
  simp only [FInput.reset, FInput.opens, Scheme.Satisfies, Policy.reset]
  cases h : p.root with
  | none => simp
  | some t => simp [sat_reset]

theorem FInput.opposite_reset_left (g f : FInput) : g.reset.opposite f = g.opposite f := by
  cases g <;> cases f <;> rfl
theorem FInput.opposite_reset_right (g f : FInput) : g.opposite f.reset = g.opposite f := by
  cases g <;> cases f <;> rfl
theorem FInput.compact_reset (g : FInput) : g.reset.compact = g.compact := by cases g <;> rfl
theorem FInput.reset_reset (g : FInput) : g.reset.reset = g.reset := by
  cases g with
  | policy p =>
    simp only [FInput.reset, Policy.reset]
    cases p.root <;> simp [resetFlags_idem]
  | _ => rfl

theorem createPolicyTree_ready {mk : Mktime} {s : Bytes} {p : Policy} (h : createPolicyTree mk s = .ok (some p)) :
    p.Ready := by
  obtain ⟨-, t, h1, h2, -, h3, -⟩ := Scheme.accepted_shape h
  exact ⟨t, h1, h2, h3⟩

namespace KeyMgr

theorem checkPolicy_ok (S : StdSort) {p : Policy} (h : p.Ready) (A : List Bytes) :
    ∃ (b : Bool) (n : Int), checkPolicy S p A = .ok ((b, n), p.reset) ∧ (b = true ↔ Scheme.Satisfies A p) ∧
      checkPolicy S p.reset A = .ok ((b, n), p.reset) := by
  obtain ⟨t, h1, h2, h3⟩ := h
  obtain ⟨n, -, hc⟩ := check_ok S t A h2 h3
  refine ⟨sat A t, n, ?_, ?_, ?_⟩
  · simp only [checkPolicy, h1, hc, Res.ok_bind, Policy.reset, Option.map_some]
  · constructor
    · intro hs; exact ⟨t, h1, hs⟩
    · rintro ⟨t', h4, hs⟩
      rw [h1] at h4
      simp only [Option.some.injEq] at h4
      rw [h4]; exact hs
  · have : p.reset.root = some (resetFlags t) := by simp [Policy.reset, h1]
    simp only [checkPolicy, this, check_reset S A t h2 h3, hc, Res.ok_bind]
    simp [Policy.reset, h1]

/-- The verdict of `testAKey`. -/
def verdict (S : StdSort) (g f : FInput) : Bool × Int :=
  match g, f with
  | .attrs l, .policy p => match checkPolicy S p l.attrs with | .ok r => r.1 | _ => (false, 0)
  | .policy p, .attrs l => match checkPolicy S p l.attrs with | .ok r => r.1 | _ => (false, 0)
  | _, _ => (false, 0)

theorem testAKey_ok (S : StdSort) {m : Meta} {f : FInput} (hm : m.input.Ready) (hf : f.Ready)
    (ho : m.input.opposite f = true) :
    testAKey S m f = .ok (verdict S m.input f, m.reset, f.reset) ∧
      ((verdict S m.input f).1 = true ↔ m.input.opens f) := by
  obtain ⟨u, b, x, s, inp, c⟩ := m
  cases inp with
  | null => exact absurd hm id
  | attrs l =>
    cases f with
    | policy p =>
      obtain ⟨b, n, h1, h2, h3⟩ := checkPolicy_ok S hf l.attrs
      simp only [testAKey, verdict, h1, Res.ok_bind]
      exact ⟨rfl, h2⟩
    | _ => simp [FInput.opposite] at ho
  | policy p =>
    cases f with
    | attrs l =>
      obtain ⟨b, n, h1, h2, h3⟩ := checkPolicy_ok S hm l.attrs
      simp only [testAKey, verdict, h1, Res.ok_bind]
      exact ⟨rfl, h2⟩
    | _ => simp [FInput.opposite] at ho

theorem verdict_reset (S : StdSort) {g f : FInput} (hg : g.Ready) (hf : f.Ready) :
    verdict S g f.reset = verdict S g f := by
  cases g <;> cases f <;> try rfl
  rename_i l p
  obtain ⟨b, n, h1, h2, h3⟩ := checkPolicy_ok S hf l.attrs
  simp only [verdict, FInput.reset, h1, h3]

/-- The same entries up to flags. -/
def SameKeys (a b : SMap Meta) : Prop := ∀ id, SMap.find id b = SMap.find id a ∨
  ∃ m, SMap.find id a = some m ∧ SMap.find id b = some m.reset

theorem SameKeys.refl (a : SMap Meta) : SameKeys a a := fun _ => .inl rfl

theorem SameKeys.trans {a b c : SMap Meta} (h1 : SameKeys a b) (h2 : SameKeys b c) : SameKeys a c := by
  intro id
  rcases h2 id with e | ⟨m, e1, e2⟩
  · rw [e]; exact h1 id
  · rcases h1 id with e' | ⟨m', e1', e2'⟩
    · rw [e'] at e1; exact .inr ⟨m, e1, e2⟩
    · rw [e2'] at e1
      simp only [Option.some.injEq] at e1
      subst e1
      refine .inr ⟨m', e1', ?_⟩
      rw [e2]
      simp only [Meta.reset, FInput.reset_reset]

theorem SameKeys.insert {a : SMap Meta} {id : Bytes} {m : Meta} (h : SMap.find id a = some m) :
    SameKeys a (SMap.insert id m.reset a) := by
  intro j
  rw [SMap.find_insert]
  by_cases hj : j = id
  · subst hj; exact .inr ⟨m, h, by simp⟩
  · exact .inl (by simp [hj])

theorem searchLoop_ok (env : KmEnv G1 G2 GT) (eff : Bool) (M : Bytes → FInput) : ∀ (ids : List Bytes) (km : KeyMgr G1 G2 GT)
    (f : FInput) (acc : List (Bytes × Int)), ids.Nodup → f.Ready → SMap.Sorted km.keys →
    (∀ id ∈ ids, ∃ m, SMap.find id km.keys = some m ∧ m.input = M id ∧ (M id).Ready ∧ (M id).opposite f = true) →
    ∃ (km' : KeyMgr G1 G2 GT) (f' : FInput), searchLoop env eff ids km f acc = .ok
      (if eff then none else ids.find? fun id => (verdict env.sort (M id) f).1,
        if eff then acc ++ (ids.filter fun id => (verdict env.sort (M id) f).1).map
          (fun id => (id, (verdict env.sort (M id) f).2)) else acc, km', f') ∧
      (∃ ks, km' = { km with keys := ks } ∧ SMap.Sorted ks ∧ SameKeys km.keys ks) ∧ (f' = f ∨ f' = f.reset)
  | [], km, f, acc, _, _, hs, _ => by
    refine ⟨km, f, ?_, ⟨km.keys, rfl, hs, SameKeys.refl _⟩, .inl rfl⟩
    cases eff <;> simp [searchLoop]
  | id :: ids, km, f, acc, hn, hf, hs, h => by
    obtain ⟨m, h1, h2, h3, h4⟩ := h id (by simp)
    obtain ⟨ht, hv⟩ := testAKey_ok env.sort (m := m) (f := f) (by rw [h2]; exact h3) hf (by rw [h2]; exact h4)
    rw [h2] at ht
    have hrest : ∀ j ∈ ids, ∃ m', SMap.find j (SMap.insert id m.reset km.keys) = some m' ∧ m'.input = M j ∧ (M j).Ready ∧
        (M j).opposite f.reset = true := by
      intro j hj
      obtain ⟨m', g1, g2, g3, g4⟩ := h j (by simp [hj])
      have hne : j ≠ id := by
        rintro rfl
        exact (List.nodup_cons.mp hn).1 hj
      exact ⟨m', by rw [SMap.find_insert, if_neg hne]; exact g1, g2, g3, by rw [FInput.opposite_reset_right]; exact g4⟩
    have hvr : ∀ j ∈ ids, verdict env.sort (M j) f.reset = verdict env.sort (M j) f := by
      intro j hj
      obtain ⟨m', g1, g2, g3, g4⟩ := h j (by simp [hj])
      exact verdict_reset env.sort g3 hf
    have hih := fun acc' => searchLoop_ok env eff M ids { km with keys := SMap.insert id m.reset km.keys } f.reset acc'
      (List.nodup_cons.mp hn).2 hf.reset (SMap.sorted_insert hs) hrest
    have hfilter : (ids.filter fun j => (verdict env.sort (M j) f.reset).1) =
        ids.filter fun j => (verdict env.sort (M j) f).1 := by
      apply List.filter_congr
      intro j hj; rw [hvr j hj]
    have hmap : ((ids.filter fun j => (verdict env.sort (M j) f).1).map fun j => (j, (verdict env.sort (M j) f.reset).2)) =
        (ids.filter fun j => (verdict env.sort (M j) f).1).map fun j => (j, (verdict env.sort (M j) f).2) := by
      apply List.map_congr_left
      intro j hj
      rw [hvr j (List.mem_of_mem_filter hj)]
    have hfind : (ids.find? fun j => (verdict env.sort (M j) f.reset).1) =
        ids.find? fun j => (verdict env.sort (M j) f).1 := by
      rw [← List.head?_filter, ← List.head?_filter, hfilter]
    simp only [searchLoop, h1, ht, Res.ok_bind]
    cases hb : (verdict env.sort (M id) f).1 with
    | false =>
      obtain ⟨km', f', e1, ⟨ks, e2, e3, e4⟩, e5⟩ := hih acc
      refine ⟨km', f', ?_, ⟨ks, by rw [e2], e3, (SameKeys.insert h1).trans e4⟩, ?_⟩
      · simp only [Bool.false_eq_true, if_false]
        rw [e1]
        simp only [hfilter, hmap, hfind, List.filter_cons, List.find?_cons, hb, Bool.false_eq_true, if_false]
      · rcases e5 with rfl | rfl
        · exact .inr rfl
        · exact .inr (FInput.reset_reset f)
    | true =>
      cases eff with
      | false =>
        refine ⟨_, _, by simp only [Bool.false_eq_true, if_false, if_true, List.find?_cons, hb],
          ⟨_, rfl, SMap.sorted_insert hs, SameKeys.insert h1⟩, .inr rfl⟩
      | true =>
        obtain ⟨km', f', e1, ⟨ks, e2, e3, e4⟩, e5⟩ := hih (acc ++ [(id, (verdict env.sort (M id) f).2)])
        refine ⟨km', f', ?_, ⟨ks, by rw [e2], e3, (SameKeys.insert h1).trans e4⟩, ?_⟩
        · simp only [if_true]
          rw [e1]
          simp only [hfilter, hmap, hfind, List.filter_cons, hb, if_true, List.map_cons, List.append_assoc, List.cons_append,
            List.nil_append]
        · rcases e5 with rfl | rfl
          · exact .inr rfl
          · exact .inr (FInput.reset_reset f)

theorem parseBlob_input {env : KmEnv G1 G2 GT} {blob rnd : Bytes} {sid : UInt8} {inp : FInput}
    (h : parseBlob env blob rnd = .ok (some (sid, inp))) : inp = .null ∨ inp.Ready := by
  unfold parseBlob at h
  obtain ⟨⟨key, body⟩, -, h⟩ := (Res.bind_eq_ok _ _ _).mp h
  simp only at h
  obtain ⟨s', -, h⟩ := (Res.bind_eq_ok _ _ _).mp h
  split at h
  · simp at h
  · obtain ⟨key', -, h⟩ := (Res.bind_eq_ok _ _ _).mp h
    obtain ⟨inp', hi, h⟩ := (Res.bind_eq_ok _ _ _).mp h
    simp only [Res.ok.injEq, Option.some.injEq, Prod.mk.injEq] at h
    obtain ⟨-, rfl⟩ := h
    unfold Key.functionInput at hi
    split at hi
    · split at hi
      · obtain ⟨o, -, hi⟩ := (Res.bind_eq_ok _ _ _).mp hi
        obtain ⟨l, -, hi⟩ := (Res.bind_eq_ok _ _ _).mp hi
        obtain ⟨r, -, hi⟩ := (Res.bind_eq_ok _ _ _).mp hi
        simp only [Res.ok.injEq] at hi
        subst hi
        cases r with
        | none => exact .inl rfl
        | some a => exact .inr trivial
      · split at hi
        · obtain ⟨o, -, hi⟩ := (Res.bind_eq_ok _ _ _).mp hi
          obtain ⟨l, -, hi⟩ := (Res.bind_eq_ok _ _ _).mp hi
          obtain ⟨r, hr, hi⟩ := (Res.bind_eq_ok _ _ _).mp hi
          simp only [Res.ok.injEq] at hi
          subst hi
          cases r with
          | none => exact .inl rfl
          | some a => exact .inr (createPolicyTree_ready hr)
        · simp only [Res.ok.injEq] at hi
          exact .inl hi.symm
    all_goals simp at hi

/-- What `store` does to the state, in all cases. -/
theorem store_cases (env : KmEnv G1 G2 GT) (km : KeyMgr G1 G2 GT) (u id blob : Bytes) (x : Nat) (c : Bool) (rnd : Bytes) :
    ((store env km u id blob x c rnd).1 = .abort ∧ (store env km u id blob x c rnd).2 = km ∧ u = [] ∧
      env.ndebug = false) ∨
    ((store env km u id blob x c rnd).1 ≠ .ok true ∧
      (store env km u id blob x c rnd).2 = { km with keys := SMap.erase id km.keys }) ∨
    ∃ sid inp new, (u ≠ [] ∨ env.ndebug = true) ∧ inp.Ready ∧ parseBlob env blob rnd = .ok (some (sid, inp)) ∧
      inp.compact = .ok new ∧ findDup u new inp (SMap.erase id km.keys) = .ok false ∧
      store env km u id blob x c rnd = (.ok true,
        { km with keys := SMap.insert id ⟨u, blob, x, sid, inp, c⟩ (SMap.erase id km.keys) }) := by
  unfold store
  split
  · rename_i hu
    exact .inl ⟨rfl, rfl, hu.1, hu.2⟩
  · rename_i hu
    refine .inr ?_
    cases hp : parseBlob env blob rnd with
    | ok o =>
      cases o with
      | none => exact .inl ⟨by simp, rfl⟩
      | some si =>
        obtain ⟨sid, inp⟩ := si
        simp only
        cases hd : (inp.compact >>= fun new => findDup u new inp (SMap.erase id km.keys)) with
        | ok b =>
          cases b with
          | true => exact .inl ⟨by simp, rfl⟩
          | false =>
            obtain ⟨new, hn, hd'⟩ := (Res.bind_eq_ok _ _ _).mp hd
            refine .inr ⟨sid, inp, new, ?_, ?_, rfl, hn, hd', rfl⟩
            · by_cases h : u = []
              · refine .inr ?_
                cases h' : env.ndebug with
                | true => rfl
                | false => exact absurd ⟨h, h'⟩ hu
              · exact .inl h
            · rcases parseBlob_input hp with rfl | h
              · simp [FInput.compact] at hd
              · exact h
        | throw e => exact .inl ⟨by simp, rfl⟩
        | ub => exact .inl ⟨by simp, rfl⟩
        | abort => exact .inl ⟨by simp, rfl⟩
    | throw e => exact .inl ⟨by simp, rfl⟩
    | ub => exact .inl ⟨by simp, rfl⟩
    | abort => exact .inl ⟨by simp, rfl⟩

theorem findDup_false {u new : Bytes} {inp : FInput} : ∀ {keys : SMap Meta}, findDup u new inp keys = .ok false →
    ∀ p ∈ keys, p.2.userId = u → FInput.sameType inp p.2.input = true → p.2.input.compact ≠ .ok new
  | [], _, p, hp => by simp at hp
  | (_, m) :: rest, h, p, hp => by
    simp only [findDup] at h
    obtain ⟨s, hs, h⟩ := (Res.bind_eq_ok _ _ _).mp h
    split at h
    · simp at h
    · rename_i hn
      rcases List.mem_cons.mp hp with rfl | hp
      · intro h1 h2 h3
        rw [hs] at h3
        simp only [Res.ok.injEq] at h3
        exact hn ⟨h3, h2, h1.symm⟩
      · exact findDup_false h p hp

/-- `findDup` only fails on null inputs. -/
theorem findDup_defined {u new : Bytes} {inp : FInput} : ∀ {keys : SMap Meta}, (∀ p ∈ keys, p.2.input.Ready) →
    ∃ b, findDup u new inp keys = .ok b ∧ (b = true ↔ ∃ p ∈ keys, p.2.userId = u ∧
      FInput.sameType inp p.2.input = true ∧ p.2.input.compact = .ok new)
  | [], _ => ⟨false, rfl, by simp⟩
  | (id, m) :: rest, h => by
    obtain ⟨b, h1, h2⟩ := findDup_defined (u := u) (new := new) (inp := inp) (keys := rest)
      (fun p hp => h p (List.mem_cons_of_mem _ hp))
    have hm := h (id, m) (by simp)
    have : ∃ s, m.input.compact = .ok s := by
      cases hi : m.input with
      | null => simp only [hi] at hm; exact absurd hm (fun h => h)
      | attrs l => exact ⟨_, rfl⟩
      | policy p => exact ⟨_, rfl⟩
    obtain ⟨s, hs⟩ := this
    simp only [findDup, hs, Res.ok_bind]
    by_cases hc : s = new ∧ FInput.sameType inp m.input = true ∧ u = m.userId
    · rw [if_pos hc]
      refine ⟨true, rfl, by simp only [true_iff]; exact ⟨(id, m), by simp, hc.2.2.symm, hc.2.1, by rw [hs, hc.1]⟩⟩
    · rw [if_neg hc]
      refine ⟨b, h1, h2.trans ?_⟩
      constructor
      · rintro ⟨p, hp, h⟩; exact ⟨p, List.mem_cons_of_mem _ hp, h⟩
      · rintro ⟨p, hp, g1, g2, g3⟩
        rcases List.mem_cons.mp hp with rfl | hp
        · simp only [hs, Res.ok.injEq] at g3
          exact absurd ⟨g3, g2, g1.symm⟩ hc
        · exact ⟨p, hp, g1, g2, g3⟩

end KeyMgr
end Abe
