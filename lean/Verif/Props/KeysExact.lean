import Verif.Props.Keystore
import Verif.Props.KeyMgr

set_option linter.unusedSimpArgs false
set_option linter.unusedSectionVars false
set_option autoImplicit false

/-! C149: all answers of the keystore and of the key manager. -/

namespace Abe

/-! ### The keystore -/

namespace KeyStore
variable {K : Type}

/-- Two maps that only `add` and `delete` change, and the set of names that are reported as present. -/
structure Names (K : Type) where
  maps : Spec K := {}
  reported : Bytes → Bool := fun _ => false

/-- Which names are reported after a call: those of secret keys that were added, those that were looked up as secret keys, and
those that were looked up, validated or deleted without there being a public key (for a deletion: any key) of that name. A deletion
that finds a key takes the name away. -/
def Names.next (n : Names K) : Op K → Bytes → Bool
  | .add x _ .sec, id | .getSec x, id => id == x || n.reported id
  | .getAny x, id | .validate x, id => (id == x && (n.maps.pub x).isNone) || n.reported id
  | .delete x, id => if id = x then (n.maps.pub x).isNone && (n.maps.sec x).isNone else n.reported id
  | _, id => n.reported id

/-- The answer of one call, and the names afterwards. -/
def Names.step (n : Names K) (op : Op K) : Out K × Names K :=
  (match op with
    | .check id => .bool (n.reported id)
    | _ => (n.maps.step op).1, ⟨(n.maps.step op).2, n.next op⟩)

/-- The answers of a history of calls. -/
def Names.run (n : Names K) : List (Op K) → List (Out K)
  | [] => []
  | op :: ops => (n.step op).1 :: (n.step op).2.run ops

/-- What the store has to do with the names. -/
def Same (ks : KeyStore K) (n : Names K) : Prop := Rep ks n.maps ∧ ∀ id, checkSecretKey ks id = n.reported id

theorem touch_present (m : SMap (Option K)) (x id : Bytes) :
    (SMap.find id (touch m x).2).isSome = (id == x || (SMap.find id m).isSome) := by
  unfold touch
  cases h : SMap.find x m with
  | some v =>
    by_cases e : id = x
    · subst e; simp [h]
    · simp [e]
  | none =>
    simp only [SMap.find_insert]
    by_cases e : id = x
    · simp [e]
    · simp [e]

theorem getKey_present {ks : KeyStore K} {n : Names K} (h : Same ks n) (x id : Bytes) :
    checkSecretKey (getKey ks x).2 id = ((id == x && (n.maps.pub x).isNone) || n.reported id) := by
  have hp := (getPublicKey_spec h.1 x).1
  unfold getKey
  cases e : (getPublicKey ks x).1 with
  | some k =>
    rw [e] at hp
    simp only [e, ← hp]
    rw [Option.isNone_some, Bool.and_false, Bool.false_or]
    exact h.2 id
  | none =>
    rw [e] at hp
    simp only [e, ← hp]
    have := touch_present ks.sec x id
    have h2 := h.2 id
    unfold checkSecretKey at h2
    simp only [Option.isNone_none, Bool.and_true]
    rw [← h2, ← this]
    rfl

theorem same_step {ks : KeyStore K} {n : Names K} (h : Same ks n) (op : Op K) :
    (KeyStore.step ks op).1 = (n.step op).1 ∧ Same (KeyStore.step ks op).2 (n.step op).2 := by
  have hs := step_spec h.1 op
  refine ⟨?_, hs.2, fun id => ?_⟩
  · cases op with
    | check id => simp only [KeyStore.step, Names.step, h.2 id]
    | _ => exact hs.1 (fun id e => by cases e)
  · cases op with
    | add x k kind =>
      cases kind with
      | pub => exact h.2 id
      | other => exact h.2 id
      | sec =>
        have := h.2 id
        simp only [checkSecretKey] at this
        simp only [KeyStore.step, addKey, Names.step, Names.next, checkSecretKey, SMap.find_insert]
        by_cases e : id = x
        · simp [e]
        · simp [e, this]
    | getPub x => exact h.2 id
    | getSec x =>
      have := touch_present ks.sec x id
      have h2 := h.2 id
      unfold checkSecretKey at h2
      simp only [Names.step, Names.next]
      rw [← h2, ← this]
      rfl
    | getAny x => exact getKey_present h x id
    | check x => exact h.2 id
    | validate x => exact getKey_present h x id
    | delete x =>
      have hk := getKey_present h x id
      have hr := (getKey_spec h.1 x).1
      simp only [KeyStore.step, Names.step, Names.next]
      unfold deleteKey
      cases e : (getKey ks x).1 with
      | none =>
        rw [e] at hr
        have hp : n.maps.pub x = none := by
          cases hp : n.maps.pub x with
          | none => rfl
          | some k => rw [hp] at hr; cases hr
        have hq : n.maps.sec x = none := by rw [hp] at hr; exact hr.symm
        simp only [e]
        rw [hk, hp, hq]
        by_cases ee : id = x
        · simp [ee]
        · simp [ee]
      | some k =>
        rw [e] at hr
        have hne : ((n.maps.pub x).isNone && (n.maps.sec x).isNone) = false := by
          cases hp : n.maps.pub x with
          | some _ => rfl
          | none => rw [hp] at hr; rw [← show some k = n.maps.sec x from hr]; rfl
        have he : ∀ b : Bool, checkSecretKey (if b = true then
            ((some Err.invalidKey : Option Err), ({ pub := SMap.erase x (getKey ks x).2.pub, sec := SMap.erase x (getKey ks x).2.sec } : KeyStore K))
            else (none, { pub := SMap.erase x (getKey ks x).2.pub, sec := SMap.erase x (getKey ks x).2.sec })).2 id =
            if id = x then false else checkSecretKey (getKey ks x).2 id := by
          intro b
          have : ∀ s : KeyStore K, checkSecretKey { pub := SMap.erase x s.pub, sec := SMap.erase x s.sec } id =
              if id = x then false else checkSecretKey s id := by
            intro s
            simp only [checkSecretKey, SMap.find_erase]
            split <;> rfl
          cases b <;> exact this _
        simp only [e]
        rw [he, hk, hne]
        by_cases ee : id = x
        · simp [ee]
        · simp [ee]

/-- For every history of calls every answer, also that of `checkSecretKey`, is the one of two maps and a set of names. -/
theorem C149_keystore (ops : List (Op K)) : (KeyStore.run ({} : KeyStore K) ops).1 = ({} : Names K).run ops := by
  have : ∀ (ops : List (Op K)) (ks : KeyStore K) (n : Names K), Same ks n → (KeyStore.run ks ops).1 = n.run ops := by
    intro ops
    induction ops with
    | nil => intro ks n _; rfl
    | cons op ops ih =>
      intro ks n h
      obtain ⟨h1, h2⟩ := same_step h op
      simp only [KeyStore.run, Names.run, h1, ih _ _ h2]
  exact this ops _ _ ⟨⟨fun _ => rfl, fun _ => rfl⟩, fun _ => rfl⟩

example : (KeyStore.run ({} : KeyStore Nat) [.check b!"a", .getSec b!"a", .check b!"a", .getSec b!"a"]).1 =
    [.bool false, .key none, .bool true, .key none] := by rw [C149_keystore]; rfl

/-- The calls that make a name reported, given the keys there are. -/
def Marks (s : Spec K) (id : Bytes) : Op K → Prop
  | .add x _ .sec | .getSec x => x = id
  | .getAny x | .validate x => x = id ∧ s.pub id = none
  | .delete x => x = id ∧ s.pub id = none ∧ s.sec id = none
  | _ => False

theorem run_snoc (ops : List (Op K)) (op : Op K) : ∀ ks : KeyStore K, (KeyStore.run ks (ops ++ [op])).2 = (KeyStore.step (KeyStore.run ks ops).2 op).2 := by
  induction ops with
  | nil => intro ks; rfl
  | cons o ops ih => intro ks; exact ih _

theorem spec_snoc (ops : List (Op K)) (op : Op K) : ∀ s : Spec K, (Spec.run s (ops ++ [op])).2 = ((Spec.run s ops).2.step op).2 := by
  induction ops with
  | nil => intro s; rfl
  | cons o ops ih => intro s; exact ih _

theorem snoc_split {α : Type} {l pre post : List α} {o op : α} (h : l ++ [o] = pre ++ op :: post) :
    (post = [] ∧ l = pre ∧ o = op) ∨ ∃ post', post = post' ++ [o] ∧ l = pre ++ op :: post' := by
  rcases List.eq_nil_or_concat post with rfl | ⟨post', z, e⟩
  · have := List.append_inj' h rfl
    exact Or.inl ⟨rfl, this.1, (List.cons.inj this.2).1⟩
  · rw [List.concat_eq_append] at e
    subst e
    have h' : l ++ [o] = (pre ++ op :: post') ++ [z] := by rw [h]; simp
    have := List.append_inj' h' rfl
    cases (List.cons.inj this.2).1
    exact Or.inr ⟨post', rfl, this.1⟩

/-- Exactly after which histories `checkSecretKey` reports a name: a call made it reported, and no deletion since then found a
key of that name. -/
theorem C149_reported (ops : List (Op K)) (id : Bytes) :
    checkSecretKey (KeyStore.run ({} : KeyStore K) ops).2 id = true ↔ ∃ pre op post, ops = pre ++ op :: post ∧
      Marks (Spec.run {} pre).2 id op ∧ ∀ p q, post = p ++ .delete id :: q →
        (Spec.run {} (pre ++ op :: p)).2.pub id = none ∧ (Spec.run {} (pre ++ op :: p)).2.sec id = none := by
  have main : ∀ l : List (Op K), ∃ n : Names K, n.maps = (Spec.run {} l.reverse).2 ∧ Same (KeyStore.run ({} : KeyStore K) l.reverse).2 n ∧
      (n.reported id = true ↔ ∃ pre op post, l.reverse = pre ++ op :: post ∧
        Marks (Spec.run {} pre).2 id op ∧ ∀ p q, post = p ++ .delete id :: q →
          (Spec.run {} (pre ++ op :: p)).2.pub id = none ∧ (Spec.run {} (pre ++ op :: p)).2.sec id = none) := by
    intro l
    induction l with
    | nil =>
      refine ⟨{}, rfl, ⟨⟨fun _ => rfl, fun _ => rfl⟩, fun _ => rfl⟩, ⟨fun h => (by cases h), ?_⟩⟩
      rintro ⟨pre, op, post, e, -⟩
      simp at e
    | cons o l ih =>
      obtain ⟨n, hn, hs, hi⟩ := ih
      refine ⟨(n.step o).2, ?_, ?_, ?_⟩
      · rw [List.reverse_cons, spec_snoc, ← hn]; rfl
      · rw [List.reverse_cons, run_snoc]; exact (same_step hs o).2
      · have hnext : (n.step o).2.reported id = true ↔ Marks n.maps id o ∨
            (n.reported id = true ∧ (o = .delete id → n.maps.pub id = none ∧ n.maps.sec id = none)) := by
          show n.next o id = true ↔ _
          cases o with
          | add x k kind =>
            cases kind with
            | pub => simp [Names.next, Marks]
            | other => simp [Names.next, Marks]
            | sec =>
              simp only [Names.next, Marks, Bool.or_eq_true, beq_iff_eq, reduceCtorEq, false_imp_iff, and_true]
              exact or_congr_left ⟨Eq.symm, Eq.symm⟩
          | getPub x => simp [Names.next, Marks]
          | getSec x =>
            simp only [Names.next, Marks, Bool.or_eq_true, beq_iff_eq, reduceCtorEq, false_imp_iff, and_true]
            exact or_congr_left ⟨Eq.symm, Eq.symm⟩
          | check x => simp [Names.next, Marks]
          | getAny x =>
            simp only [Names.next, Marks, Bool.or_eq_true, Bool.and_eq_true, beq_iff_eq, Option.isNone_iff_eq_none]
            constructor
            · rintro (⟨rfl, h⟩ | h)
              · exact Or.inl ⟨rfl, h⟩
              · exact Or.inr ⟨h, fun e => (by cases e)⟩
            · rintro (⟨rfl, h⟩ | h)
              · exact Or.inl ⟨rfl, h⟩
              · exact Or.inr h.1
          | validate x =>
            simp only [Names.next, Marks, Bool.or_eq_true, Bool.and_eq_true, beq_iff_eq, Option.isNone_iff_eq_none]
            constructor
            · rintro (⟨rfl, h⟩ | h)
              · exact Or.inl ⟨rfl, h⟩
              · exact Or.inr ⟨h, fun e => (by cases e)⟩
            · rintro (⟨rfl, h⟩ | h)
              · exact Or.inl ⟨rfl, h⟩
              · exact Or.inr h.1
          | delete x =>
            simp only [Names.next, Marks]
            by_cases e : id = x
            · subst e
              simp only [if_true, Bool.and_eq_true, Option.isNone_iff_eq_none, true_and]
              constructor
              · intro h; exact Or.inl h
              · rintro (h | h)
                · exact h
                · exact h.2 trivial
            · rw [if_neg e]
              constructor
              · intro h
                exact Or.inr ⟨h, fun h' => absurd (by cases h'; rfl) e⟩
              · rintro (h | h)
                · exact absurd h.1.symm e
                · exact h.1
        rw [hnext, List.reverse_cons]
        constructor
        · rintro (hm | ⟨hr, hd⟩)
          · refine ⟨l.reverse, o, [], rfl, hn ▸ hm, fun p q e => ?_⟩
            simp at e
          · obtain ⟨pre, op, post, e, hm, hp⟩ := hi.mp hr
            refine ⟨pre, op, post ++ [o], by rw [e]; simp, hm, fun p q e' => ?_⟩
            rcases snoc_split e' with ⟨rfl, rfl, rfl⟩ | ⟨q', rfl, rfl⟩
            · rw [← e, ← hn]; exact hd rfl
            · exact hp p q' rfl
        · rintro ⟨pre, op, post, e, hm, hp⟩
          rcases snoc_split e with ⟨rfl, rfl, rfl⟩ | ⟨post', rfl, e'⟩
          · exact Or.inl (hn ▸ hm)
          · refine Or.inr ⟨hi.mpr ⟨pre, op, post', e', hm, fun p q e2 => hp p (q ++ [o]) (by rw [e2]; simp)⟩, ?_⟩
            rintro rfl
            rw [hn, e']
            exact hp post' [] rfl
  obtain ⟨n, -, hs, hi⟩ := main ops.reverse
  rw [List.reverse_reverse] at hs hi
  rw [hs.2 id]
  exact hi

example : checkSecretKey (KeyStore.run ({} : KeyStore Nat) [.add b!"b" 1 .sec, .validate b!"a"]).2 b!"a" = true :=
  (C149_reported _ _).mpr ⟨[.add b!"b" 1 .sec], .validate b!"a", [], rfl, ⟨rfl, rfl⟩, fun p q e => by simp at e⟩

end KeyStore
/-! ### The key manager -/

namespace KeyMgr
variable {G1 G2 GT : Type} {env : KmEnv G1 G2 GT}

/-- The ids of the keys of a user that open an input. -/
def Candidate (env : KmEnv G1 G2 GT) (log : Log) (u : Bytes) (f : FInput) (id : Bytes) : Prop :=
  u ≠ [] ∧ ∃ blob inp, log.latest id = some (u, blob) ∧ Holds env blob inp ∧ inp.opens f

theorem filterKeys_least {km : KeyMgr G1 G2 GT} (hs : SMap.Sorted km.keys) {u : Bytes} {f : FInput} {P : Bytes → Bool} {id : Bytes}
    (h : (filterKeys km u f).find? P = some id) : ∀ j ∈ filterKeys km u f, P j = true → j = id ∨ blt id j = true := by
  have key : ∀ l : List (Bytes × Meta), SMap.Sorted l → ∀ l' : List (Bytes × Meta), l'.Sublist l →
      (l'.map Prod.fst).find? P = some id → ∀ j ∈ l'.map Prod.fst, P j = true → j = id ∨ blt id j = true := by
    intro l
    induction l with
    | nil =>
      intro _ l' hl'
      cases hl'
      intro h
      simp at h
    | cons p l ih =>
      intro hs l' hl'
      cases hl' with
      | cons _ hl' => exact ih hs.2 l' hl'
      | cons_cons _ hl' =>
        rename_i l'
        intro h j hj hP
        rw [List.map_cons, List.find?_cons] at h
        rw [List.map_cons, List.mem_cons] at hj
        cases hp : P p.1 with
        | true =>
          rw [hp] at h
          cases h
          rcases hj with rfl | hj
          · exact Or.inl rfl
          · obtain ⟨x, hx, rfl⟩ := List.mem_map.mp hj
            exact Or.inr (hs.1 x (hl'.subset hx))
        | false =>
          rw [hp] at h
          rcases hj with rfl | hj
          · rw [hp] at hP; cases hP
          · exact ih hs.2 l' hl' h j hj hP
  unfold filterKeys at h ⊢
  split at h
  · simp at h
  · rename_i hu
    rw [if_neg hu]
    exact key km.keys hs _ List.filter_sublist h

/-- Exactly which id a search returns: if no key of the user opens the input the empty one, otherwise that of such a key: without
`isEfficient` the least one in the order of bytes, with it one of least cost. -/
theorem C149_search {log : Log} {km : KeyMgr G1 G2 GT} (h : Reach env log km) (q : Query) {f : FInput} (hf : f.Ready) :
    ∃ id km' f', search env km q f = .ok (id, km', f') ∧
      ((id = [] ∧ ∀ j, ¬ Candidate env log q.userId f j) ∨
       (Candidate env log q.userId f id ∧
        (q.efficient = false → ∀ j, Candidate env log q.userId f j → j = id ∨ blt id j = true) ∧
        (q.efficient = true → ∃ blob inp n, log.latest id = some (q.userId, blob) ∧ Holds env blob inp ∧ Costs env.sort inp f n ∧
          ∀ j b i n', log.latest j = some (q.userId, b) → Holds env b i → i.opens f → Costs env.sort i f n' → n ≤ n'))) := by
  have hi := reach_inv h
  obtain ⟨id, km1, f1, g1, -, -, g2⟩ := search_spec hi q hf
  refine ⟨id, km1, f1, g1, ?_⟩
  rcases g2 with ⟨g2, g3⟩ | ⟨g2, g3, g4, g5⟩
  · refine Or.inl ⟨g2, fun j hj => ?_⟩
    obtain ⟨c1, c2⟩ := (candidate_iff hi hf).mpr hj
    rw [g3 j c1] at c2
    cases c2
  · have hc := (candidate_iff hi hf).mp ⟨g2, g3⟩
    refine Or.inr ⟨hc, fun hq j hj => ?_, fun hq => ?_⟩
    · obtain ⟨c1, c2⟩ := (candidate_iff hi hf).mpr hj
      exact filterKeys_least hi.sorted (g5 hq) j c1 c2
    · obtain ⟨hu, blob, inp, c1, c2, c3⟩ := hc
      have rdy : ∀ {b i}, Holds env b i → i.opens f → i.Ready := by
        intro b i hb ho
        rcases hb.ready with rfl | hr
        · cases f <;> exact absurd ho (fun h => h)
        · exact hr
      refine ⟨blob, inp, _, c1, c2, costs_verdict (rdy c2 c3) hf c3, ?_⟩
      intro j b i n' d1 d2 d3 d4
      obtain ⟨e1, e2⟩ := (candidate_iff hi hf).mpr ⟨hu, b, i, d1, d2, d3⟩
      have := g4 hq j e1 e2
      rw [inputOf_cost hi c1 c2, inputOf_cost hi d1 d2] at this
      rw [costs_unique d4 (costs_verdict (rdy d2 d3) hf d3)]
      exact this

/-- The answer of a search is empty although a key of the user opens the input, exactly if such a key has the empty id (with
`isEfficient`: only if, and it is one of least cost). -/
theorem C149_search_empty {log : Log} {km : KeyMgr G1 G2 GT} (h : Reach env log km) (q : Query) {f : FInput} (hf : f.Ready) :
    ∃ id km' f', search env km q f = .ok (id, km', f') ∧
      (q.efficient = false → (id = [] ↔ Candidate env log q.userId f [] ∨ ∀ j, ¬ Candidate env log q.userId f j)) ∧
      (id = [] → Candidate env log q.userId f [] ∨ ∀ j, ¬ Candidate env log q.userId f j) := by
  obtain ⟨id, km', f', h1, h2⟩ := C149_search h q hf
  have only : id = [] → Candidate env log q.userId f [] ∨ ∀ j, ¬ Candidate env log q.userId f j := by
    rintro rfl
    rcases h2 with h2 | h2
    · exact Or.inr h2.2
    · exact Or.inl h2.1
  refine ⟨id, km', f', h1, fun hq => ⟨only, ?_⟩, only⟩
  rintro (hc | hc)
  · rcases h2 with h2 | h2
    · exact h2.1
    · rcases h2.2.1 hq [] hc with e | e
      · exact e.symm
      · cases id <;> simp [blt] at e
  · rcases h2 with h2 | h2
    · exact h2.1
    · exact absurd h2.1 (hc id)

/-- What everybody reads after a store, whatever its outcome: under other ids what it was; under this id the new key if the store
reported success and for its user, and nothing otherwise. -/
theorem C149_store (km : KeyMgr G1 G2 GT) {u : Bytes} (hu : u ≠ []) (id blob : Bytes) (x : Nat) (c : Bool) (rnd : Bytes) (v j : Bytes) :
    (j ≠ id → getKey (store env km u id blob x c rnd).2 v j = getKey km v j) ∧
    ((store env km u id blob x c rnd).1 = .ok true → v = u → ∃ inp s, Holds env blob inp ∧ inp.compact = .ok s ∧
      getKey (store env km u id blob x c rnd).2 v id = .ok (s, blob)) ∧
    ((store env km u id blob x c rnd).1 ≠ .ok true ∨ v ≠ u → getKey (store env km u id blob x c rnd).2 v id = .ok ([], [])) := by
  refine ⟨fun hj => C64_other_ids_partial km u id blob x c rnd hj v, ?_, ?_⟩
  · rintro hs rfl
    rcases store_cases env km v id blob x c rnd with ⟨h1, -⟩ | ⟨h1, -⟩ | ⟨sid, inp, new, -, -, hp, hc, -, h3⟩
    · rw [hs] at h1; cases h1
    · exact absurd hs h1
    · refine ⟨inp, new, ⟨rnd, sid, hp⟩, hc, ?_⟩
      rw [h3]
      simp only [getKey, SMap.find_insert, if_true, hc, Res.ok_bind]
  · rintro (hs | hv)
    · apply getKey_other
      intro m hm
      rcases store_cases env km u id blob x c rnd with ⟨-, -, h2, -⟩ | ⟨-, h2⟩ | ⟨sid, inp, new, -, -, -, -, -, h3⟩
      · exact absurd h2 hu
      · rw [h2] at hm
        simp [SMap.find_erase] at hm
      · rw [h3] at hs
        exact absurd rfl hs
    · exact C64_other_user_violated km hu (fun e => hv e.symm) id blob x c rnd

/-- A store that does not report success leaves the manager as it was exactly if nothing is stored under its id. -/
theorem C149_failed_store {log : Log} {km : KeyMgr G1 G2 GT} (h : Reach env log km) {u : Bytes} (hu : u ≠ []) (id blob : Bytes) (x : Nat)
    (c : Bool) (rnd : Bytes) (hs : (store env km u id blob x c rnd).1 ≠ .ok true) :
    (store env km u id blob x c rnd).2 = km ↔ log.latest id = none := by
  have hl := (reach_inv h).latest id
  constructor
  · intro e
    rcases store_cases env km u id blob x c rnd with ⟨-, -, h2, -⟩ | ⟨-, h2⟩ | ⟨sid, inp, new, -, -, -, -, -, h3⟩
    · exact absurd h2 hu
    · rw [h2] at e
      have : SMap.find id km.keys = none := by
        rw [← e]
        simp [SMap.find_erase]
      rw [← hl, this]
      rfl
    · rw [h3] at hs; exact absurd rfl hs
  · intro e
    rw [e, Option.map_eq_none_iff] at hl
    exact (C67_failed_store_partial km u id blob x c rnd hs).1 hl

/-- The ids of the keys that a user stores with one prefix, starting at the count 0, are different exactly if there are at most
twenty. -/
theorem C149_prefix {u pre : Bytes} {km km' : KeyMgr G1 G2 GT} {ids : List Bytes} (h : PrefixRun env u pre km ids km')
    (h0 : (userKeyCount km u).1 = 0) : ids.Nodup ↔ ids.length ≤ 20 := by
  refine ⟨fun hn => ?_, C77_prefix_ids_partial h h0⟩
  obtain ⟨h1, -⟩ := prefixRun_count h h0
  rw [h1] at hn
  apply Nat.le_of_not_lt
  intro hl
  have := (List.nodup_iff_injective_getElem.mp hn) (a₁ := ⟨0, by simp; omega⟩) (a₂ := ⟨20, by simp; omega⟩) (by simp)
  simp at this

/-! ### Concrete cases -/

namespace Ex

/-- C149_search, C149_search_empty, C149_failed_store: a reachable state, a parsed input, and a key of Alice that opens it. -/
example : Reach Ex.env [(b!"k3", some (b!"alice", kpKey b!"a and (b or c)")), (b!"k2", some (b!"bob", cpKey b!"|a|c")),
      (b!"k1", some (b!"alice", cpKey b!"|a|c"))] km3 ∧ pol.Ready ∧
    Candidate Ex.env [(b!"k3", some (b!"alice", kpKey b!"a and (b or c)")), (b!"k2", some (b!"bob", cpKey b!"|a|c")),
      (b!"k1", some (b!"alice", cpKey b!"|a|c"))] b!"alice" pol b!"k1" :=
  ⟨reach3, pol_ready, by decide, cpKey b!"|a|c", held (cpKey b!"|a|c"), by decide +kernel, holds_held (by decide +kernel),
    opens_of (by decide +kernel)⟩

/-- C149_store, C149_failed_store: a store that succeeds and one that does not, under an id that is in use. -/
example : isOk (store Ex.env km3 b!"alice" b!"k2" (cpKey b!"|b|c") 0 false []).1 (fun r => r) = true ∧
    isOk (store Ex.env km3 b!"alice" b!"k2" (cpKey b!"|a|c") 0 false []).1 (fun r => !r) = true := by decide +kernel

/-- C149_prefix: twenty stores. -/
example : ∃ ids, ids.length = 20 ∧ PrefixRun Ex.env b!"alice" b!"p" km0 ids (many 20) := allOk_run 20 (by decide +kernel)

end Ex

end KeyMgr
end Abe
