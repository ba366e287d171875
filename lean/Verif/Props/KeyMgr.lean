import Verif.Proof.KeyMgr
import Verif.Props.Container
import Verif.Props.Scheme
/-!
# Properties of the key manager (C62-C67, C77, C78)

Histories are all finite sequences of commands on a new key manager, by any users, with any key bytes. The log holds
the stores that reported success: user, key id, key bytes.
-/
set_option linter.unusedSimpArgs false
set_option linter.unusedSectionVars false
set_option autoImplicit false
namespace Abe.KeyMgr
variable {G1 G2 GT : Type}

/-- What happened under a key id: `some (user, key bytes)` for a store that reported success, `none` for one that did
not. -/
abbrev Log := List (Bytes × Option (Bytes × Bytes))

/-- The last event under an id. -/
def Log.latest (id : Bytes) : Log → Option (Bytes × Bytes)
  | [] => none
  | (i, e) :: rest => if i = id then e else Log.latest id rest

/-- Commands that returned or raised, newest event first; the inputs of searches come from the parser, possibly used
before. -/
inductive Reach (env : KmEnv G1 G2 GT) : Log → KeyMgr G1 G2 GT → Prop
  | new : Reach env [] {}
  | stored {log km km'} (u id blob : Bytes) (x : Nat) (c : Bool) (rnd : Bytes) : Reach env log km →
      store env km u id blob x c rnd = (.ok true, km') → Reach env ((id, some (u, blob)) :: log) km'
  | notStored {log km km' r} (u id blob : Bytes) (x : Nat) (c : Bool) (rnd : Bytes) : Reach env log km →
      store env km u id blob x c rnd = (r, km') → (r = .ok false ∨ ∃ e, r = .throw e) → Reach env ((id, none) :: log) km'
  | storedPrefix {log km km' id} (u pre blob : Bytes) (x : Nat) (c : Bool) (rnd : Bytes) : Reach env log km →
      storePrefix env km u pre blob x c rnd = (.ok id, km') → id ≠ [] → Reach env ((id, some (u, blob)) :: log) km'
  | notStoredPrefix {log km km' r} (u pre blob : Bytes) (x : Nat) (c : Bool) (rnd : Bytes) : Reach env log km →
      storePrefix env km u pre blob x c rnd = (r, km') → (r = .ok [] ∨ ∃ e, r = .throw e) →
      Reach env ((pre ++ natDec (userKeyCount km u).1, none) :: log) km'
  | counted {log km} (u : Bytes) : Reach env log km → Reach env log (userKeyCount km u).2
  | passphrase {log km} (p u s : Bytes) : Reach env log km → Reach env log (setPassphrase km p u s)
  | searched {log km km' f f' id} (q : Query) : Reach env log km → f.Ready → search env km q f = .ok (id, km', f') →
      Reach env log km'
  | deleted {log km} (q : Query) : Reach env log km → Reach env log (delete km q).2

/-- The function input that the bytes of a key stand for. -/
def Holds (env : KmEnv G1 G2 GT) (blob : Bytes) (inp : FInput) : Prop :=
  ∃ rnd sid, parseBlob env blob rnd = .ok (some (sid, inp))

/-! ## Invariants -/

/-- What holds in every reachable state. -/
structure Inv (env : KmEnv G1 G2 GT) (log : Log) (keys : SMap Meta) : Prop where
  sorted : SMap.Sorted keys
  ready : ∀ id m, SMap.find id keys = some m → m.input.Ready
  latest : ∀ id, (SMap.find id keys).map (fun m => (m.userId, m.blob)) = log.latest id
  holds : ∀ id m, SMap.find id keys = some m → ∃ inp, Holds env m.blob inp ∧ (m.input = inp ∨ m.input = inp.reset)
  nodup : ∀ i j m n, SMap.find i keys = some m → SMap.find j keys = some n → m.userId = n.userId →
    FInput.sameType m.input n.input = true → m.input.compact = n.input.compact → i = j

variable {env : KmEnv G1 G2 GT}

theorem find_erase_some {id j : Bytes} {keys : SMap Meta} {m : Meta} (h : SMap.find j (SMap.erase id keys) = some m) :
    j ≠ id ∧ SMap.find j keys = some m := by
  rw [SMap.find_erase] at h
  split at h
  · simp at h
  · rename_i hne; exact ⟨hne, h⟩

theorem Inv.erase {log : Log} {keys : SMap Meta} (h : Inv env log keys) (id : Bytes) :
    Inv env ((id, none) :: log) (SMap.erase id keys) where
  sorted := SMap.sorted_erase h.sorted
  ready j m hf := h.ready j m (find_erase_some hf).2
  latest j := by
    rw [SMap.find_erase]
    simp only [Log.latest]
    by_cases hj : j = id
    · rw [if_pos hj, if_pos hj.symm]; rfl
    · rw [if_neg hj, if_neg (fun h => hj h.symm)]; exact h.latest j
  holds j m hf := h.holds j m (find_erase_some hf).2
  nodup i j m n hi hj := h.nodup i j m n (find_erase_some hi).2 (find_erase_some hj).2

theorem Inv.same {log : Log} {keys ks : SMap Meta} (h : Inv env log keys) (hs : SMap.Sorted ks)
    (e : SameKeys keys ks) : Inv env log ks := by
  have key : ∀ id m, SMap.find id ks = some m → ∃ m0, SMap.find id keys = some m0 ∧ (m = m0 ∨ m = m0.reset) := by
    intro id m hf
    rcases e id with e | ⟨m', e1, e2⟩
    · exact ⟨m, by rw [← e]; exact hf, .inl rfl⟩
    · rw [e2] at hf
      simp only [Option.some.injEq] at hf
      exact ⟨m', e1, .inr hf.symm⟩
  refine ⟨hs, ?_, ?_, ?_, ?_⟩
  · intro id m hf
    obtain ⟨m0, h0, rfl | rfl⟩ := key id m hf
    · exact h.ready id _ h0
    · exact (h.ready id _ h0).reset
  · intro id
    rw [← h.latest id]
    rcases e id with e | ⟨m', e1, e2⟩
    · rw [e]
    · rw [e1, e2]; rfl
  · intro id m hf
    obtain ⟨m0, h0, rfl | rfl⟩ := key id m hf
    · exact h.holds id _ h0
    · obtain ⟨inp, h1, h2⟩ := h.holds id m0 h0
      refine ⟨inp, h1, .inr ?_⟩
      rcases h2 with h2 | h2
      · simp [Meta.reset, h2]
      · simp [Meta.reset, h2, FInput.reset_reset]
  · intro i j m n hi hj
    have st : ∀ a b : FInput, FInput.sameType a.reset b = FInput.sameType a b := by intro a b; cases a <;> cases b <;> rfl
    have st' : ∀ a b : FInput, FInput.sameType a b.reset = FInput.sameType a b := by intro a b; cases a <;> cases b <;> rfl
    obtain ⟨m0, hm, em⟩ := key i m hi
    obtain ⟨n0, hn, en⟩ := key j n hj
    have := h.nodup i j m0 n0 hm hn
    rcases em with rfl | rfl <;> rcases en with rfl | rfl <;>
      first | exact this | (simp only [Meta.reset, FInput.compact_reset, st, st']; exact this)

theorem Inv.store {log : Log} {km : KeyMgr G1 G2 GT} (h : Inv env log km.keys)
    (u id blob : Bytes) (x : Nat) (c : Bool) (rnd : Bytes) (ha : (store env km u id blob x c rnd).1 ≠ .abort) :
    Inv env ((id, if (store env km u id blob x c rnd).1 = .ok true then some (u, blob) else none) :: log)
      (store env km u id blob x c rnd).2.keys := by
  rcases store_cases env km u id blob x c rnd with ⟨h1, h2, -⟩ | ⟨h1, h2⟩ | ⟨sid, inp, new, -, h2, h4, h5, h6, h3⟩
  · exact absurd h1 ha
  · rw [if_neg h1, h2]; exact h.erase id
  · rw [h3, if_pos rfl]
    have he := h.erase id
    have dup := findDup_false h6
    have hfind : ∀ j m, SMap.find j (SMap.insert id (⟨u, blob, x, sid, inp, c⟩ : Meta) (SMap.erase id km.keys)) = some m →
        (j = id ∧ m = ⟨u, blob, x, sid, inp, c⟩) ∨ (j ≠ id ∧ SMap.find j (SMap.erase id km.keys) = some m) := by
      intro j m hf
      rw [SMap.find_insert] at hf
      split at hf
      · rename_i e; simp only [Option.some.injEq] at hf; exact .inl ⟨e, hf.symm⟩
      · rename_i e; exact .inr ⟨e, hf⟩
    refine ⟨SMap.sorted_insert he.sorted, ?_, ?_, ?_, ?_⟩
    · intro j m hf
      rcases hfind j m hf with ⟨-, rfl⟩ | ⟨-, hf⟩
      · exact h2
      · exact he.ready j m hf
    · intro j
      rw [SMap.find_insert]
      simp only [Log.latest]
      by_cases hj : j = id
      · rw [if_pos hj, if_pos hj.symm]; rfl
      · have := he.latest j
        simp only [Log.latest] at this
        rw [if_neg (fun h => hj h.symm)] at this
        rw [if_neg hj, if_neg (fun h => hj h.symm)]
        exact this
    · intro j m hf
      rcases hfind j m hf with ⟨-, rfl⟩ | ⟨-, hf⟩
      · exact ⟨inp, ⟨rnd, sid, h4⟩, .inl rfl⟩
      · exact he.holds j m hf
    · have sym : ∀ a b : FInput, FInput.sameType a b = FInput.sameType b a := by intro a b; cases a <;> cases b <;> rfl
      intro i j m n hi hj hu ht hc
      rcases hfind i m hi with ⟨rfl, rfl⟩ | ⟨hi1, hi⟩ <;> rcases hfind j n hj with ⟨rfl, rfl⟩ | ⟨hj1, hj⟩
      · rfl
      · exact absurd (hc.symm.trans h5) (dup (j, n) (SMap.mem_of_find hj) hu.symm ht)
      · exact absurd (hc.trans h5) (dup (i, m) (SMap.mem_of_find hi) hu (by rw [sym]; exact ht))
      · exact he.nodup i j m n hi hj hu ht hc

/-- The keys that a search looks at. -/
theorem mem_filterKeys {km : KeyMgr G1 G2 GT} (hs : SMap.Sorted km.keys) {u : Bytes} {f : FInput} {id : Bytes} :
    id ∈ filterKeys km u f ↔ u ≠ [] ∧ ∃ m, SMap.find id km.keys = some m ∧ m.userId = u ∧ m.input.opposite f = true := by
  unfold filterKeys
  split
  · rename_i h; simp [h]
  · rename_i h
    simp only [List.mem_map, List.mem_filter, Bool.and_eq_true, decide_eq_true_eq]
    constructor
    · rintro ⟨⟨id', m⟩, ⟨h1, h2, h3⟩, rfl⟩
      exact ⟨h, m, SMap.find_of_mem hs h1, h3.symm, h2⟩
    · rintro ⟨-, m, h1, h2, h3⟩
      exact ⟨(id, m), ⟨SMap.mem_of_find h1, h3, h2.symm⟩, rfl⟩

theorem nodup_filterKeys {km : KeyMgr G1 G2 GT} (hs : SMap.Sorted km.keys) (u : Bytes) (f : FInput) :
    (filterKeys km u f).Nodup := by
  unfold filterKeys
  split
  · simp
  · exact (SMap.nodup_keys hs).sublist (List.Sublist.map _ List.filter_sublist)

/-- The stored input of a key. -/
def inputOf (km : KeyMgr G1 G2 GT) (id : Bytes) : FInput :=
  match SMap.find id km.keys with
  | some m => m.input
  | none => .null

theorem searchLoop_inv {log : Log} {km : KeyMgr G1 G2 GT}
    (h : Inv env log km.keys) (q : Query) {f : FInput} (hf : f.Ready) :
    ∃ (km' : KeyMgr G1 G2 GT) (f' : FInput), searchLoop env q.efficient (filterKeys km q.userId f) km f [] = .ok
      (if q.efficient then none else (filterKeys km q.userId f).find? fun id => (verdict env.sort (inputOf km id) f).1,
        if q.efficient then ((filterKeys km q.userId f).filter fun id => (verdict env.sort (inputOf km id) f).1).map
          (fun id => (id, (verdict env.sort (inputOf km id) f).2)) else [], km', f') ∧
      (∃ ks, km' = { km with keys := ks } ∧ SMap.Sorted ks ∧ SameKeys km.keys ks) ∧ (f' = f ∨ f' = f.reset) := by
  have := searchLoop_ok env q.efficient (inputOf km) (filterKeys km q.userId f) km f [] (nodup_filterKeys h.sorted _ _) hf
    h.sorted (by
      intro id hid
      obtain ⟨-, m, h1, h2, h3⟩ := (mem_filterKeys h.sorted).mp hid
      have e : inputOf km id = m.input := by simp [inputOf, h1]
      exact ⟨m, h1, e.symm, by rw [e]; exact h.ready id m h1, by rw [e]; exact h3⟩)
  simpa only [List.nil_append] using this

/-- What a search returns. -/
theorem search_spec {log : Log} {km : KeyMgr G1 G2 GT}
    (h : Inv env log km.keys) (q : Query) {f : FInput} (hf : f.Ready) :
    ∃ (id : Bytes) (km' : KeyMgr G1 G2 GT) (f' : FInput), search env km q f = .ok (id, km', f') ∧
      (∃ ks, km' = { km with keys := ks } ∧ SMap.Sorted ks ∧ SameKeys km.keys ks) ∧ (f' = f ∨ f' = f.reset) ∧
      ((id = [] ∧ ∀ j ∈ filterKeys km q.userId f, (verdict env.sort (inputOf km j) f).1 = false) ∨
       (id ∈ filterKeys km q.userId f ∧ (verdict env.sort (inputOf km id) f).1 = true ∧
        (q.efficient = true → ∀ j ∈ filterKeys km q.userId f, (verdict env.sort (inputOf km j) f).1 = true →
          (verdict env.sort (inputOf km id) f).2 ≤ (verdict env.sort (inputOf km j) f).2) ∧
        (q.efficient = false → (filterKeys km q.userId f).find? (fun j => (verdict env.sort (inputOf km j) f).1) = some id))) := by
  obtain ⟨km', f', h1, h2, h3⟩ := searchLoop_inv (env := env) h q hf
  have hs : search env km q f = (searchLoop env q.efficient (filterKeys km q.userId f) km f [] >>= fun r =>
      match r.1 with
      | some id => .ok (id, r.2.2.1, r.2.2.2)
      | none => match r.2.1 with
        | [] => .ok ([], r.2.2.1, r.2.2.2)
        | _ => match env.refs.fn r.2.1 with
          | (id, _) :: _ => .ok (id, r.2.2.1, r.2.2.2)
          | [] => .ub) := by
    cases f with
    | null => exact absurd hf id
    | _ => rfl
  rw [h1, Res.ok_bind] at hs
  simp only at hs
  cases he : q.efficient with
  | false =>
    simp only [he, Bool.false_eq_true, if_false] at hs
    cases hfd : (filterKeys km q.userId f).find? fun id => (verdict env.sort (inputOf km id) f).1 with
    | none =>
      rw [hfd] at hs
      refine ⟨[], km', f', hs, h2, h3, .inl ⟨rfl, ?_⟩⟩
      intro j hj
      have := List.find?_eq_none.mp hfd j hj
      simpa using this
    | some id =>
      rw [hfd] at hs
      exact ⟨id, km', f', hs, h2, h3, .inr ⟨List.mem_of_find?_eq_some hfd, by simpa using List.find?_some hfd, by simp, fun _ => rfl⟩⟩
  | true =>
    simp only [he, if_true] at hs
    cases hl : (filterKeys km q.userId f).filter fun id => (verdict env.sort (inputOf km id) f).1 with
    | nil =>
      rw [hl] at hs
      refine ⟨[], km', f', hs, h2, h3, .inl ⟨rfl, ?_⟩⟩
      intro j hj
      have := List.filter_eq_nil_iff.mp hl j hj
      simpa using this
    | cons a l =>
      rw [hl] at hs
      simp only [List.map_cons] at hs
      have hperm := env.refs.perm ((a :: l).map fun id => (id, (verdict env.sort (inputOf km id) f).2))
      have hsort := env.refs.sorted ((a :: l).map fun id => (id, (verdict env.sort (inputOf km id) f).2))
      simp only [List.map_cons] at hperm hsort
      revert hs hperm hsort
      generalize env.refs.fn _ = srt
      intro hs hperm hsort
      cases srt with
      | nil => simp at hperm
      | cons b rest =>
        obtain ⟨id, n⟩ := b
        have hmem : ∀ j, j ∈ a :: l ↔ j ∈ filterKeys km q.userId f ∧ (verdict env.sort (inputOf km j) f).1 = true := by
          intro j; rw [← hl, List.mem_filter]
        have hid : (id, n) ∈ ((a :: l).map fun id => (id, (verdict env.sort (inputOf km id) f).2)) := by
          have : (id, n) ∈ (id, n) :: rest := by simp
          have := hperm.mem_iff.mp this
          simpa using this
        obtain ⟨j, hj, e⟩ := List.mem_map.mp hid
        simp only [Prod.mk.injEq] at e
        obtain ⟨rfl, rfl⟩ := e
        obtain ⟨g1, g2⟩ := (hmem j).mp hj
        refine ⟨j, km', f', hs, h2, h3, .inr ⟨g1, g2, ?_, by simp⟩⟩
        intro _ i hi1 hi2
        have hi : (i, (verdict env.sort (inputOf km i) f).2) ∈ (j, (verdict env.sort (inputOf km j) f).2) :: rest := by
          apply hperm.mem_iff.mpr
          have := List.mem_map_of_mem (f := fun id => (id, (verdict env.sort (inputOf km id) f).2)) ((hmem i).mpr ⟨hi1, hi2⟩)
          simpa using this
        rcases List.mem_cons.mp hi with e | e
        · simp only [Prod.mk.injEq] at e
          rw [e.2]
        · exact (List.pairwise_cons.mp hsort).1 _ e

theorem storePrefix_cases (env : KmEnv G1 G2 GT) (km : KeyMgr G1 G2 GT) (u pre blob : Bytes) (x : Nat) (c : Bool) (rnd : Bytes) :
    ∃ cn, ((storePrefix env km u pre blob x c rnd).1 = .ok (pre ++ natDec (count km u)) ∧
        store env { km with counter := cn } u (pre ++ natDec (count km u)) blob x c rnd =
          (.ok true, (store env { km with counter := cn } u (pre ++ natDec (count km u)) blob x c rnd).2) ∨
      (storePrefix env km u pre blob x c rnd).1 ≠ .ok (pre ++ natDec (count km u)) ∧
        (store env { km with counter := cn } u (pre ++ natDec (count km u)) blob x c rnd).1 ≠ .ok true ∧
        (∀ id, (storePrefix env km u pre blob x c rnd).1 = .ok id → id = [])) ∧
      (storePrefix env km u pre blob x c rnd).2.keys =
        (store env { km with counter := cn } u (pre ++ natDec (count km u)) blob x c rnd).2.keys := by
  have hne : ∀ n, pre ++ natDec n ≠ [] := by
    intro n h
    have := natDec_ne_nil n
    simp_all
  have key : ∀ cn, (if (SMap.find u km.counter).isSome then km else { km with counter := SMap.insert u 0 km.counter }) =
      { km with counter := cn } → count ({ km with counter := cn } : KeyMgr G1 G2 GT) u = count km u →
      ((storePrefix env km u pre blob x c rnd).1 = .ok (pre ++ natDec (count km u)) ∧
        store env { km with counter := cn } u (pre ++ natDec (count km u)) blob x c rnd =
          (.ok true, (store env { km with counter := cn } u (pre ++ natDec (count km u)) blob x c rnd).2) ∨
      (storePrefix env km u pre blob x c rnd).1 ≠ .ok (pre ++ natDec (count km u)) ∧
        (store env { km with counter := cn } u (pre ++ natDec (count km u)) blob x c rnd).1 ≠ .ok true ∧
        (∀ id, (storePrefix env km u pre blob x c rnd).1 = .ok id → id = [])) ∧
      (storePrefix env km u pre blob x c rnd).2.keys =
        (store env { km with counter := cn } u (pre ++ natDec (count km u)) blob x c rnd).2.keys := by
    intro cn h0 hc
    unfold storePrefix
    simp only [h0, hc]
    generalize hr : store env { km with counter := cn } u (pre ++ natDec (count km u)) blob x c rnd = r
    obtain ⟨r1, r2⟩ := r
    cases r1 with
    | ok b =>
      cases b with
      | true => exact ⟨.inl ⟨rfl, rfl⟩, rfl⟩
      | false =>
        refine ⟨.inr ⟨?_, by simp, ?_⟩, rfl⟩
        · simp only [ne_eq, Res.ok.injEq]
          exact fun h => hne _ h.symm
        · intro id h
          simp only [Res.ok.injEq] at h
          exact h.symm
    | throw e => exact ⟨.inr ⟨by simp, by simp, by simp⟩, rfl⟩
    | ub => exact ⟨.inr ⟨by simp, by simp, by simp⟩, rfl⟩
    | abort => exact ⟨.inr ⟨by simp, by simp, by simp⟩, rfl⟩
  by_cases h : (SMap.find u km.counter).isSome
  · exact ⟨km.counter, key km.counter (by rw [if_pos h]) rfl⟩
  · refine ⟨SMap.insert u 0 km.counter, key _ (by rw [if_neg h]) ?_⟩
    simp only [Option.not_isSome_iff_eq_none] at h
    simp [count, SMap.find_insert, h]

theorem storePrefix_abort (env : KmEnv G1 G2 GT) (km : KeyMgr G1 G2 GT) (u pre blob : Bytes) (x : Nat) (c : Bool) (rnd : Bytes)
    (hu : u = []) (hn : env.ndebug = false) : (storePrefix env km u pre blob x c rnd).1 = .abort := by
  unfold storePrefix
  have : ∀ km id, store env km u id blob x c rnd = (.abort, km) := by
    intro km id; unfold store; rw [if_pos ⟨hu, hn⟩]
  simp only [this]

theorem reach_inv {log : Log} {km : KeyMgr G1 G2 GT} (h : Reach env log km) : Inv env log km.keys := by
  induction h with
  | new => exact ⟨trivial, by simp, fun _ => rfl, by simp, by simp⟩
  | stored u id blob x c rnd _ h ih =>
    have := ih.store u id blob x c rnd (by rw [h]; simp)
    rw [h] at this
    simpa using this
  | notStored u id blob x c rnd _ h hr ih =>
    have := ih.store u id blob x c rnd (by rw [h]; rcases hr with rfl | ⟨e, rfl⟩ <;> simp)
    rw [h] at this
    rw [if_neg (by rcases hr with rfl | ⟨e, rfl⟩ <;> simp)] at this
    exact this
  | @storedPrefix log km km' id u pre blob x c rnd _ h hid ih =>
    obtain ⟨cn, h1, h2⟩ := storePrefix_cases env km u pre blob x c rnd
    rw [h] at h1 h2
    simp only at h1 h2
    rcases h1 with ⟨e1, e2⟩ | ⟨-, -, e⟩
    · have hst := Inv.store (env := env) (km := { km with counter := cn }) ih u (pre ++ natDec (count km u)) blob x c rnd
        (by rw [e2]; simp)
      simp only [Res.ok.injEq] at e1
      rw [h2, e1]
      rw [if_pos (by rw [e2])] at hst
      exact hst
    · exact absurd (e id rfl) hid
  | @notStoredPrefix log km km' r u pre blob x c rnd _ h hr ih =>
    obtain ⟨cn, h1, h2⟩ := storePrefix_cases env km u pre blob x c rnd
    have ha := storePrefix_abort env km u pre blob x c rnd
    rw [h] at h1 h2 ha
    simp only at h1 h2 ha
    rcases h1 with ⟨e1, e2⟩ | ⟨-, e, -⟩
    · exfalso
      have hne := natDec_ne_nil (count km u)
      rcases hr with rfl | ⟨e', rfl⟩
      · simp only [Res.ok.injEq] at e1
        have : natDec (count km u) = [] := (List.append_eq_nil_iff.mp e1.symm).2
        exact hne this
      · simp at e1
    · rcases store_cases env { km with counter := cn } u (pre ++ natDec (count km u)) blob x c rnd with
        ⟨h3, h4, h5, h6⟩ | ⟨h3, h4⟩ | ⟨sid, inp, new, -, -, -, -, -, h3⟩
      · exact absurd (ha h5 h6) (by rcases hr with rfl | ⟨e, rfl⟩ <;> simp)
      · rw [h2, h4]; exact ih.erase _
      · rw [h3] at e; simp at e
  | counted u _ ih => unfold userKeyCount; simp only; split <;> exact ih
  | passphrase p u s _ ih => exact ih
  | searched q _ hf h ih =>
    obtain ⟨id, km', f', h1, ⟨ks, h2, h3, h4⟩, -⟩ := search_spec (env := env) ih q hf
    rw [h] at h1
    simp only [Res.ok.injEq, Prod.mk.injEq] at h1
    rw [h1.2.1, h2]
    exact ih.same h3 h4
  | deleted q _ ih => unfold delete; simp only; split; · exact ih
                      · split <;> exact ih

theorem Inv.get {log : Log} {keys : SMap Meta} (h : Inv env log keys) {id u blob : Bytes}
    (hl : log.latest id = some (u, blob)) : ∃ m, SMap.find id keys = some m ∧ m.userId = u ∧ m.blob = blob := by
  have := h.latest id
  rw [hl] at this
  cases hf : SMap.find id keys with
  | none => rw [hf] at this; simp at this
  | some m =>
    rw [hf] at this
    simp only [Option.map_some, Option.some.injEq, Prod.mk.injEq] at this
    exact ⟨m, rfl, this.1, this.2⟩

/-- The randomness of the key constructor is overwritten by the header. -/
theorem construct_rnd (blob r1 r2 : Bytes) : (Key.construct blob r1 : Res (Option (Key G1 G2 GT × Bytes))) = Key.construct blob r2 := by
  unfold Key.construct
  simp only
  split
  · rfl
  · congr 1
    funext hi
    obtain ⟨hdr, i⟩ := hi
    simp only
    split
    · rename_i hl
      have : (BS.getSubset hdr 2 uidLen).length = uidLen := by
        have : uidLen = 16 := rfl
        rw [BS.getSubset, if_pos (by omega)]
        simp
        omega
      simp only [Key.new, this, if_true]
    · rfl

/-- All readings of a key give the same input. -/
theorem Holds.unique {blob : Bytes} {a b : FInput} (h1 : Holds env blob a) (h2 : Holds env blob b) : a = b := by
  obtain ⟨r1, s1, h1⟩ := h1
  obtain ⟨r2, s2, h2⟩ := h2
  simp only [parseBlob, Key.parseHeader, construct_rnd blob r1 r2] at h1 h2
  rw [h1] at h2
  simp only [Res.ok.injEq, Option.some.injEq, Prod.mk.injEq] at h2
  exact h2.2

theorem verdict_reset_left (S : StdSort) {g f : FInput} (hg : g.Ready) : verdict S g.reset f = verdict S g f := by
  cases g <;> cases f <;> try rfl
  rename_i p l
  obtain ⟨b, n, h1, h2, h3⟩ := checkPolicy_ok S hg l.attrs
  simp only [verdict, FInput.reset, h1, h3]

theorem opens_opposite {g f : FInput} (h : g.opens f) : g.opposite f = true := by
  cases g <;> cases f <;> first | rfl | exact absurd h (fun h => h)

theorem Holds.ready {blob : Bytes} {inp : FInput} (h : Holds env blob inp) : inp = .null ∨ inp.Ready := by
  obtain ⟨r, s, h⟩ := h
  exact parseBlob_input h

/-- What a search finds, in terms of the log. -/
theorem candidate_iff {log : Log} {km : KeyMgr G1 G2 GT} (h : Inv env log km.keys) {u : Bytes} {f : FInput} (hf : f.Ready)
    {id : Bytes} : (id ∈ filterKeys km u f ∧ (verdict env.sort (inputOf km id) f).1 = true) ↔
      u ≠ [] ∧ ∃ blob inp, log.latest id = some (u, blob) ∧ Holds env blob inp ∧ inp.opens f := by
  constructor
  · rintro ⟨h1, h2⟩
    obtain ⟨hu, m, hm, rfl, ho⟩ := (mem_filterKeys h.sorted).mp h1
    have e : inputOf km id = m.input := by simp [inputOf, hm]
    rw [e] at h2
    obtain ⟨inp, h3, h4⟩ := h.holds id m hm
    have hop := ((testAKey_ok env.sort (h.ready id m hm) hf ho).2).mp h2
    refine ⟨hu, m.blob, inp, ?_, h3, ?_⟩
    · rw [← h.latest id, hm]; rfl
    · rcases h4 with h4 | h4
      · rw [← h4]; exact hop
      · rw [h4] at hop; exact (FInput.opens_reset_left _ _).mp hop
  · rintro ⟨hu, blob, inp, h1, h2, h3⟩
    obtain ⟨m, hm, rfl, rfl⟩ := h.get h1
    obtain ⟨inp', h4, h5⟩ := h.holds id m hm
    rw [h4.unique h2] at h5
    have hop : m.input.opens f := by
      rcases h5 with h5 | h5
      · rw [h5]; exact h3
      · rw [h5]; exact (FInput.opens_reset_left _ _).mpr h3
    have ho := opens_opposite hop
    have e : inputOf km id = m.input := by simp [inputOf, hm]
    exact ⟨(mem_filterKeys h.sorted).mpr ⟨hu, m, hm, rfl, ho⟩, by
      rw [e]; exact (testAKey_ok env.sort (h.ready id m hm) hf ho).2.mpr hop⟩

theorem inputOf_cost {log : Log} {km : KeyMgr G1 G2 GT} (h : Inv env log km.keys) {f inp : FInput} {id u blob : Bytes}
    (h1 : log.latest id = some (u, blob)) (h2 : Holds env blob inp) :
    verdict env.sort (inputOf km id) f = verdict env.sort inp f := by
  obtain ⟨m, hm, rfl, rfl⟩ := h.get h1
  obtain ⟨inp', h4, h5⟩ := h.holds id m hm
  rw [h4.unique h2] at h5
  have e : inputOf km id = m.input := by simp [inputOf, hm]
  rw [e]
  rcases h5 with h5 | h5
  · rw [h5]
  · rcases h2.ready with h6 | h6
    · rw [h5, h6]; rfl
    · rw [h5, verdict_reset_left env.sort h6]

theorem getKey_keys {a b : KeyMgr G1 G2 GT} {u id : Bytes} (h : SMap.find id a.keys = SMap.find id b.keys) :
    getKey a u id = getKey b u id := by simp only [getKey, h]

/-! ## Property theorems -/

/-! ### C63 -/

/-- In every state that can be reached `getKeyCommand` returns the key of the last store under that id, with the text
of the function input in that key, if that store succeeded and was for the same user; and nothing otherwise. -/
theorem C63_get_latest {log : Log} {km : KeyMgr G1 G2 GT} (h : Reach env log km) (u id : Bytes) :
    ∃ r, getKey km u id = .ok r ∧
      (∀ blob, log.latest id = some (u, blob) → r.2 = blob ∧ ∃ inp, Holds env blob inp ∧ inp.compact = .ok r.1) ∧
      ((∀ blob, log.latest id ≠ some (u, blob)) → r = ([], [])) := by
  have hi := reach_inv h
  unfold getKey
  have hl := hi.latest id
  cases hf : SMap.find id km.keys with
  | none =>
    rw [hf] at hl
    exact ⟨_, rfl, by intro b hb; rw [← hl] at hb; simp at hb, fun _ => rfl⟩
  | some m =>
    rw [hf] at hl
    simp only [Option.map_some] at hl
    simp only
    by_cases hu : m.userId = u
    · rw [if_pos hu]
      obtain ⟨inp, h1, h2⟩ := hi.holds id m hf
      have hc : m.input.compact = inp.compact := by
        rcases h2 with h2 | h2
        · rw [h2]
        · rw [h2, FInput.compact_reset]
      have : ∃ s, m.input.compact = .ok s := by
        have hr := hi.ready id m hf
        cases hi : m.input with
        | null => rw [hi] at hr; exact absurd hr (fun h => h)
        | attrs l => exact ⟨_, rfl⟩
        | policy p => exact ⟨_, rfl⟩
      obtain ⟨s, hs⟩ := this
      rw [hs]
      refine ⟨(s, m.blob), rfl, ?_, ?_⟩
      · intro b hb
        rw [← hl] at hb
        simp only [Option.some.injEq, Prod.mk.injEq] at hb
        exact ⟨hb.2, inp, by rw [← hb.2]; exact h1, by rw [← hc]; exact hs⟩
      · intro hn
        exact absurd (by rw [← hl, hu]) (hn m.blob)
    · rw [if_neg hu]
      refine ⟨_, rfl, ?_, fun _ => rfl⟩
      intro b hb
      rw [← hl] at hb
      simp only [Option.some.injEq, Prod.mk.injEq] at hb
      exact absurd hb.1 hu

/-- A key that a search selects was stored for the user of the query. -/
theorem C63_search_own {log : Log} {km km' : KeyMgr G1 G2 GT} (h : Reach env log km) {q : Query} {f f' : FInput} {id : Bytes}
    (hf : f.Ready) (hs : search env km q f = .ok (id, km', f')) (hid : id ≠ []) :
    ∃ blob, log.latest id = some (q.userId, blob) := by
  obtain ⟨id', km1, f1, h1, -, -, h2⟩ := search_spec (reach_inv h) q hf
  rw [hs] at h1
  simp only [Res.ok.injEq, Prod.mk.injEq] at h1
  obtain ⟨rfl, -, -⟩ := h1
  rcases h2 with ⟨h2, -⟩ | ⟨h2, h3, -⟩
  · exact absurd h2 hid
  · obtain ⟨-, blob, inp, h4, -⟩ := (candidate_iff (reach_inv h) hf).mp ⟨h2, h3⟩
    exact ⟨blob, h4⟩

/-! ### C65 -/

/-- A search with an input from the parser returns normally, and a key that it selects belongs to the user and opens the input. -/
theorem C65_search_sound {log : Log} {km : KeyMgr G1 G2 GT} (h : Reach env log km) (q : Query) {f : FInput} (hf : f.Ready) :
    ∃ id km' f', search env km q f = .ok (id, km', f') ∧
      (id ≠ [] → ∃ blob inp, log.latest id = some (q.userId, blob) ∧ Holds env blob inp ∧ inp.opens f) := by
  obtain ⟨id, km1, f1, h1, -, -, h2⟩ := search_spec (reach_inv h) q hf
  refine ⟨id, km1, f1, h1, fun hid => ?_⟩
  rcases h2 with ⟨h2, -⟩ | ⟨h2, h3, -⟩
  · exact absurd h2 hid
  · exact ((candidate_iff (reach_inv h) hf).mp ⟨h2, h3⟩).2

/-- If the user (with a non-empty name) has a key that opens the input, and no key is stored under the empty id, the search
selects one. -/
theorem C65_search_complete_partial {log : Log} {km : KeyMgr G1 G2 GT} (h : Reach env log km) (q : Query) {f : FInput} (hf : f.Ready)
    (hu : q.userId ≠ []) (he : log.latest [] = none) {j blob : Bytes} {inp : FInput}
    (h1 : log.latest j = some (q.userId, blob)) (h2 : Holds env blob inp) (h3 : inp.opens f) :
    ∃ id km' f', search env km q f = .ok (id, km', f') ∧ id ≠ [] := by
  obtain ⟨id, km1, f1, g1, -, -, g2⟩ := search_spec (reach_inv h) q hf
  refine ⟨id, km1, f1, g1, ?_⟩
  rcases g2 with ⟨-, g2⟩ | ⟨g2, g3, -⟩
  · obtain ⟨c1, c2⟩ := (candidate_iff (reach_inv h) hf).mpr ⟨hu, blob, inp, h1, h2, h3⟩
    rw [g2 j c1] at c2
    exact absurd c2 (by simp)
  · obtain ⟨-, b, i, c1, -⟩ := (candidate_iff (reach_inv h) hf).mp ⟨g2, g3⟩
    rintro rfl
    rw [he] at c1
    exact absurd c1 (by simp)

theorem head_of_empty {keys : SMap Meta} {m : Meta} (hs : SMap.Sorted keys) (h : SMap.find [] keys = some m) :
    ∃ rest, keys = ([], m) :: rest := by
  cases keys with
  | nil => simp at h
  | cons p rest =>
    obtain ⟨k, v⟩ := p
    rcases List.mem_cons.mp (SMap.mem_of_find h) with e | e
    · exact ⟨rest, by rw [e]⟩
    · have := hs.1 _ e
      simp only [blt] at this
      cases k <;> simp [blt] at this

/-- A key stored under the empty id hides all keys of the user: the search that takes the first key reports that there is none. -/
theorem C65_empty_id_violated {log : Log} {km : KeyMgr G1 G2 GT} (h : Reach env log km) (q : Query) {f : FInput} (hf : f.Ready)
    (hu : q.userId ≠ []) (hq : q.efficient = false) {blob : Bytes} {inp : FInput}
    (h1 : log.latest [] = some (q.userId, blob)) (h2 : Holds env blob inp) (h3 : inp.opens f) :
    ∃ km' f', search env km q f = .ok ([], km', f') := by
  have hi := reach_inv h
  obtain ⟨id, km1, f1, g1, -, -, g2⟩ := search_spec hi q hf
  refine ⟨km1, f1, ?_⟩
  rw [g1]
  rcases g2 with ⟨rfl, -⟩ | ⟨-, -, -, g⟩
  · rfl
  · obtain ⟨c1, c2⟩ := (candidate_iff hi hf).mpr ⟨hu, blob, inp, h1, h2, h3⟩
    obtain ⟨m, hm, -⟩ := hi.get h1
    obtain ⟨rest, hr⟩ := head_of_empty hi.sorted hm
    have : ∃ l, filterKeys km q.userId f = [] :: l := by
      obtain ⟨-, m', h4, h5, h6⟩ := (mem_filterKeys hi.sorted).mp c1
      rw [hm] at h4
      simp only [Option.some.injEq] at h4
      subst h4
      refine ⟨(rest.filter fun p => FInput.opposite p.2.input f && decide (q.userId = p.2.userId)).map Prod.fst, ?_⟩
      simp only [filterKeys, if_neg hu, hr, List.filter_cons, h6, h5, decide_true, Bool.and_self, if_true, List.map_cons]
    obtain ⟨l, hl⟩ := this
    have := g hq
    rw [hl, List.find?_cons, c2] at this
    simp only [Option.some.injEq] at this
    rw [← this]

/-- A search changes no key, and leaves an input that can be used again. -/
theorem C65_search_keeps_keys {log : Log} {km km' : KeyMgr G1 G2 GT} (h : Reach env log km) {q : Query} {f f' : FInput} {id : Bytes}
    (hf : f.Ready) (hs : search env km q f = .ok (id, km', f')) :
    (∀ u j, getKey km' u j = getKey km u j) ∧ f'.Ready ∧ (∀ g : FInput, g.opens f' ↔ g.opens f) := by
  obtain ⟨id', km1, f1, h1, ⟨ks, rfl, h3, h4⟩, h5, -⟩ := search_spec (reach_inv h) q hf
  rw [hs] at h1
  simp only [Res.ok.injEq, Prod.mk.injEq] at h1
  obtain ⟨-, rfl, rfl⟩ := h1
  refine ⟨?_, ?_, ?_⟩
  · intro u j
    rcases h4 j with e | ⟨m, e1, e2⟩
    · exact getKey_keys e
    · simp only [getKey, e1, e2]
      simp only [Meta.reset, FInput.compact_reset]
  · rcases h5 with rfl | rfl
    · exact hf
    · exact hf.reset
  · intro g
    rcases h5 with rfl | rfl
    · exact Iff.rfl
    · exact FInput.opens_reset_right g f

/-! ### C66 -/

/-- The cost that `checkIfSatisfied` reports for a key input and a ciphertext input, on unused objects. -/
def Costs (S : StdSort) : FInput → FInput → Int → Prop
  | .attrs l, .policy p, n => ∃ p', checkPolicy S p l.attrs = .ok ((true, n), p')
  | .policy p, .attrs l, n => ∃ p', checkPolicy S p l.attrs = .ok ((true, n), p')
  | _, _, _ => False

theorem costs_verdict {S : StdSort} {g f : FInput} (hg : g.Ready) (hf : f.Ready) (ho : g.opens f) :
    Costs S g f (verdict S g f).2 := by
  cases g <;> cases f <;> try exact absurd ho (fun h => h)
  · rename_i l p
    obtain ⟨b, n, h1, h2, -⟩ := checkPolicy_ok S hf l.attrs
    have : b = true := h2.mpr ho
    subst this
    simp only [Costs, verdict, h1]
    exact ⟨_, rfl⟩
  · rename_i p l
    obtain ⟨b, n, h1, h2, -⟩ := checkPolicy_ok S hg l.attrs
    have : b = true := h2.mpr ho
    subst this
    simp only [Costs, verdict, h1]
    exact ⟨_, rfl⟩

theorem costs_unique {S : StdSort} {g f : FInput} {a b : Int} (h1 : Costs S g f a) (h2 : Costs S g f b) : a = b := by
  cases g <;> cases f <;> try exact absurd h1 (fun h => h)
  all_goals
    obtain ⟨p1, h1⟩ := h1
    obtain ⟨p2, h2⟩ := h2
    rw [h1] at h2
    simp only [Res.ok.injEq, Prod.mk.injEq] at h2
    exact h2.1.2

/-- With `isEfficient` set no key of the user that opens the input costs less than the selected one. -/
theorem C66_cheapest {log : Log} {km : KeyMgr G1 G2 GT} (h : Reach env log km) (q : Query) {f : FInput} (hf : f.Ready)
    (hq : q.efficient = true) :
    ∃ id km' f', search env km q f = .ok (id, km', f') ∧ (id ≠ [] →
      ∃ blob inp n, log.latest id = some (q.userId, blob) ∧ Holds env blob inp ∧ Costs env.sort inp f n ∧
      ∀ j b i n', log.latest j = some (q.userId, b) → Holds env b i → i.opens f → Costs env.sort i f n' → n ≤ n') := by
  have hi := reach_inv h
  obtain ⟨id, km1, f1, g1, -, -, g2⟩ := search_spec hi q hf
  refine ⟨id, km1, f1, g1, fun hid => ?_⟩
  rcases g2 with ⟨g2, -⟩ | ⟨g2, g3, g4, -⟩
  · exact absurd g2 hid
  · obtain ⟨hu, blob, inp, c1, c2, c3⟩ := (candidate_iff hi hf).mp ⟨g2, g3⟩
    have rdy : ∀ {b i}, Holds env b i → i.opens f → i.Ready := by
      intro b i hb ho
      rcases hb.ready with rfl | hr
      · cases f <;> exact absurd ho (fun h => h)
      · exact hr
    refine ⟨blob, inp, _, c1, c2, costs_verdict (rdy c2 c3) hf c3, ?_⟩
    intro j b i n' d1 d2 d3 d4
    obtain ⟨e1, e2⟩ := (candidate_iff hi hf).mpr ⟨hu, b, i, d1, d2, d3⟩
    have := g4 hq j e1 e2
    rw [inputOf_cost hi c1 c2, inputOf_cost hi d1 d2] at this
    rw [costs_unique d4 (costs_verdict (rdy d2 d3) hf d3)]
    exact this

/-! ### C64 and C67 -/

theorem find_store {km : KeyMgr G1 G2 GT} (u id blob : Bytes) (x : Nat) (c : Bool) (rnd : Bytes) {j : Bytes} (hj : j ≠ id) :
    SMap.find j (store env km u id blob x c rnd).2.keys = SMap.find j km.keys := by
  rcases store_cases env km u id blob x c rnd with ⟨-, h2, -⟩ | ⟨-, h2⟩ | ⟨sid, inp, new, -, -, -, -, -, h3⟩
  · rw [h2]
  · rw [h2]; simp only [SMap.find_erase, if_neg hj]
  · rw [h3]; simp only [SMap.find_insert, SMap.find_erase, if_neg hj]

/-- Whatever the outcome, storing under one id leaves what every user reads under other ids as it was. -/
theorem C64_other_ids_partial (km : KeyMgr G1 G2 GT) (u id blob : Bytes) (x : Nat) (c : Bool) (rnd : Bytes) {j : Bytes}
    (hj : j ≠ id) (v : Bytes) : getKey (store env km u id blob x c rnd).2 v j = getKey km v j :=
  getKey_keys (find_store u id blob x c rnd hj)

theorem getKey_other {km : KeyMgr G1 G2 GT} {v id : Bytes} (h : ∀ m, SMap.find id km.keys = some m → m.userId ≠ v) :
    getKey km v id = .ok ([], []) := by
  unfold getKey
  cases hf : SMap.find id km.keys with
  | none => rfl
  | some m => simp only; rw [if_neg (h m hf)]

/-- Any user can take away the key of any other user: storing anything under the same id, with any outcome, leaves the owner with
nothing. -/
theorem C64_other_user_violated (km : KeyMgr G1 G2 GT) {u v : Bytes} (hu : u ≠ []) (huv : u ≠ v) (id blob : Bytes) (x : Nat)
    (c : Bool) (rnd : Bytes) : getKey (store env km u id blob x c rnd).2 v id = .ok ([], []) := by
  apply getKey_other
  intro m hm
  rcases store_cases env km u id blob x c rnd with ⟨-, -, h2, -⟩ | ⟨-, h2⟩ | ⟨sid, inp, new, -, -, -, -, -, h3⟩
  · exact absurd h2 hu
  · rw [h2] at hm
    simp [SMap.find_erase] at hm
  · rw [h3] at hm
    simp only [SMap.find_insert, if_true, Option.some.injEq] at hm
    rw [← hm]; exact huv

/-- The id of a key stored with a prefix. -/
theorem storePrefix_id {km km' : KeyMgr G1 G2 GT} {u pre blob : Bytes} {x : Nat} {c : Bool} {rnd id : Bytes}
    (h : storePrefix env km u pre blob x c rnd = (.ok id, km')) (hid : id ≠ []) :
    id = pre ++ natDec (userKeyCount km u).1 ∧ (userKeyCount km' u).1 = ((userKeyCount km u).1 + 1) % 20 ∧
      ∀ v, v ≠ u → (userKeyCount km' v).1 = (userKeyCount km v).1 := by
  have hc : ∀ (km : KeyMgr G1 G2 GT) u, (userKeyCount km u).1 = count km u := fun _ _ => rfl
  simp only [hc]
  unfold storePrefix at h
  simp only at h
  have hcn : ∀ v, count (if (SMap.find u km.counter).isSome then km else { km with counter := SMap.insert u 0 km.counter } :
      KeyMgr G1 G2 GT) v = count km v := by
    intro v
    split
    · rfl
    · rename_i hn
      simp only [Option.not_isSome_iff_eq_none] at hn
      simp only [count, SMap.find_insert]
      by_cases hv : v = u
      · rw [if_pos hv, hv, hn]; rfl
      · rw [if_neg hv]
  have hst : ∀ (km : KeyMgr G1 G2 GT) i, (store env km u i blob x c rnd).2.counter = km.counter := by
    intro km i
    rcases store_cases env km u i blob x c rnd with ⟨-, h2, -⟩ | ⟨-, h2⟩ | ⟨sid, inp, new, -, -, -, -, -, h3⟩
    · rw [h2]
    · rw [h2]
    · rw [h3]
  have hsc : ∀ (km : KeyMgr G1 G2 GT) i v, count (store env km u i blob x c rnd).2 v = count km v := by
    intro km i v; simp only [count, hst]
  split at h
  · simp only [Prod.mk.injEq, Res.ok.injEq] at h
    obtain ⟨h1, h2⟩ := h
    subst h2
    refine ⟨by rw [← h1, hcn], ?_, ?_⟩
    · simp only [hsc, hcn]
      simp [count, SMap.find_insert, maxKeys]
    · intro v hv
      have : ∀ (k : KeyMgr G1 G2 GT) n, count { k with counter := SMap.insert u n k.counter } v = count k v := by
        intro k n; simp only [count, SMap.find_insert, if_neg hv]
      rw [this, hsc, hcn]
  · simp only [Prod.mk.injEq, Res.ok.injEq] at h
    exact absurd h.1.symm hid
  all_goals simp at h

/-- Two users with equally many stored keys who use the same prefix: the second one takes away the key of the first. -/
theorem C64_prefix_violated {km km1 : KeyMgr G1 G2 GT} {u v pre blob id : Bytes} {x : Nat} {c : Bool} {rnd : Bytes} (hu : u ≠ [])
    (huv : u ≠ v) (hn : (userKeyCount km u).1 = (userKeyCount km v).1)
    (h : storePrefix env km v pre blob x c rnd = (.ok id, km1)) (hid : id ≠ []) (blob' : Bytes) (x' : Nat) (c' : Bool) (rnd' : Bytes) :
    getKey (storePrefix env km1 u pre blob' x' c' rnd').2 v id = .ok ([], []) := by
  obtain ⟨h1, -, h3⟩ := storePrefix_id h hid
  obtain ⟨cn, -, h4⟩ := storePrefix_cases env km1 u pre blob' x' c' rnd'
  have e : id = pre ++ natDec (count km1 u) := by
    rw [h1]
    have := h3 u huv
    rw [hn] at this
    have e2 : (userKeyCount km1 u).1 = count km1 u := rfl
    rw [← e2, this]
  rw [getKey_keys (b := (store env { km1 with counter := cn } u (pre ++ natDec (count km1 u)) blob' x' c' rnd').2)
    (by rw [h4]), ← e]
  exact C64_other_user_violated _ hu huv id blob' x' c' rnd'

/-- A store that fails (also one for the owner, here with no key bytes at all) has already removed the key under its id. -/
theorem C67_failed_store_violated (km : KeyMgr G1 G2 GT) {u : Bytes} (hu : u ≠ []) (id : Bytes) (x : Nat) (c : Bool) (rnd : Bytes) :
    (store env km u id [] x c rnd).1 = .throw .invalidInput ∧
      ∀ v, getKey (store env km u id [] x c rnd).2 v id = .ok ([], []) := by
  have e : store env km u id [] x c rnd = (.throw .invalidInput, { km with keys := SMap.erase id km.keys }) := by
    unfold store
    rw [if_neg (fun h => hu h.1)]
    rfl
  rw [e]
  refine ⟨rfl, fun v => ?_⟩
  simp only [getKey, SMap.find_erase, if_true]

/-- A store that does not succeed leaves the whole state as it was if nothing is stored under its id; in any case what users read
under other ids. -/
theorem C67_failed_store_partial (km : KeyMgr G1 G2 GT) (u id blob : Bytes) (x : Nat) (c : Bool) (rnd : Bytes)
    (h : (store env km u id blob x c rnd).1 ≠ .ok true) :
    (SMap.find id km.keys = none → (store env km u id blob x c rnd).2 = km) ∧
    ∀ v j, j ≠ id → getKey (store env km u id blob x c rnd).2 v j = getKey km v j := by
  refine ⟨fun hn => ?_, fun v j hj => C64_other_ids_partial km u id blob x c rnd hj v⟩
  rcases store_cases env km u id blob x c rnd with ⟨-, h2, -⟩ | ⟨-, h2⟩ | ⟨sid, inp, new, -, -, -, -, -, h3⟩
  · exact h2
  · rw [h2, SMap.erase_absent hn]
  · rw [h3] at h; exact absurd rfl h

/-! ### C62 -/

theorem searchLoop_keys (eff : Bool) : ∀ (ids : List Bytes) (a b : KeyMgr G1 G2 GT) (f : FInput) (acc : List (Bytes × Int)),
    a.keys = b.keys → (searchLoop env eff ids a f acc >>= fun r => .ok (r.1, r.2.1, r.2.2.1.keys, r.2.2.2)) =
      (searchLoop env eff ids b f acc >>= fun r => .ok (r.1, r.2.1, r.2.2.1.keys, r.2.2.2))
  | [], a, b, f, acc, h => by simp only [searchLoop, Res.ok_bind, h]
  | id :: ids, a, b, f, acc, h => by
    simp only [searchLoop, h]
    cases SMap.find id b.keys with
    | none => rfl
    | some m =>
      simp only
      cases testAKey env.sort m f with
      | ok r =>
        simp only [Res.ok_bind]
        split
        · split
          · exact searchLoop_keys eff ids _ _ _ _ rfl
          · rfl
        · exact searchLoop_keys eff ids _ _ _ _ rfl
      | _ => rfl

/-- Searches only look at the stored keys. -/
theorem search_keys (q : Query) (f : FInput) {a b : KeyMgr G1 G2 GT} (h : a.keys = b.keys) :
    (search env a q f >>= fun r => .ok r.1) = (search env b q f >>= fun r => Res.ok r.1) := by
  have hk := searchLoop_keys (env := env) q.efficient (filterKeys b q.userId f) a b f [] h
  have hfk : filterKeys a q.userId f = filterKeys b q.userId f := by simp only [filterKeys, h]
  cases f with
  | null => rfl
  | _ =>
    simp only [search, hfk]
    revert hk
    generalize searchLoop env q.efficient (filterKeys b q.userId _) a _ [] = ra
    generalize searchLoop env q.efficient (filterKeys b q.userId _) b _ [] = rb
    intro hk
    cases ra <;> cases rb <;> simp only [Res.ok_bind, Res.throw_bind, Res.ub_bind, Res.abort_bind] at hk ⊢ <;>
      first
      | (simp only [Res.throw.injEq] at hk; rw [hk])
      | rfl
      | (simp at hk; done)
      | skip
    rename_i x y
    obtain ⟨x1, x2, x3, x4⟩ := x
    obtain ⟨y1, y2, y3, y4⟩ := y
    simp only [Res.ok.injEq, Prod.mk.injEq] at hk
    obtain ⟨rfl, rfl, -, -⟩ := hk
    simp only
    cases x1 with
    | some i => rfl
    | none =>
      cases x2 with
      | nil => rfl
      | cons c l =>
        simp only
        cases env.refs.fn (c :: l) <;> rfl

theorem delete_keys (km : KeyMgr G1 G2 GT) (q : Query) : (delete km q).2.keys = km.keys := by
  unfold delete; simp only; split
  · rfl
  · split <;> rfl

theorem mem_keyIds {km : KeyMgr G1 G2 GT} (hs : SMap.Sorted km.keys) {u : Bytes} {now : Nat} {id : Bytes} :
    id ∈ keyIds km u now ↔ ∃ m, SMap.find id km.keys = some m ∧
      ((now = 0 ∧ m.userId = u) ∨ (now ≠ 0 ∧ m.expires ≤ now)) := by
  simp only [keyIds, List.mem_map, List.mem_filter]
  constructor
  · rintro ⟨⟨i, m⟩, ⟨h1, h2⟩, rfl⟩
    refine ⟨m, SMap.find_of_mem hs h1, ?_⟩
    simp only at h2
    split at h2
    · rename_i hu
      simp only [decide_eq_true_eq] at h2
      by_cases hn : now = 0
      · exact .inl ⟨hn, hu.symm⟩
      · exact .inr ⟨hn, by omega⟩
    · simp only [decide_eq_true_eq] at h2
      exact .inr ⟨by omega, h2.2⟩
  · rintro ⟨m, h1, h2⟩
    refine ⟨(id, m), ⟨SMap.mem_of_find h1, ?_⟩, rfl⟩
    simp only
    split
    · simp only [decide_eq_true_eq]; omega
    · rename_i hu
      simp only [decide_eq_true_eq]
      rcases h2 with ⟨-, h2⟩ | ⟨h2, h3⟩
      · exact absurd h2.symm hu
      · omega

/-- `deleteKeyCommand` deletes nothing: every id that it reports is still there, its owner still reads the same key, and every
search gives what it gave before. -/
theorem C62_delete_violated {log : Log} {km : KeyMgr G1 G2 GT} (h : Reach env log km) (q : Query) {ids : List Bytes}
    (hd : (delete km q).1 = .ok ids) :
    (∀ id ∈ ids, ∃ u blob s, log.latest id = some (u, blob) ∧ getKey (delete km q).2 u id = .ok (s, blob)) ∧
    (∀ u id, getKey (delete km q).2 u id = getKey km u id) ∧
    ∀ q' f, (search env (delete km q).2 q' f >>= fun r => .ok r.1) = (search env km q' f >>= fun r => Res.ok r.1) := by
  have hi := reach_inv h
  have hg : ∀ u id, getKey (delete km q).2 u id = getKey km u id := fun u id => getKey_keys (by rw [delete_keys])
  refine ⟨?_, hg, fun q' f => search_keys q' f (delete_keys km q)⟩
  intro id hid
  have : id ∈ keyIds km q.userId q.now := by
    unfold delete at hd
    simp only at hd
    split at hd
    · simp at hd
    · split at hd <;> (simp only [Res.ok.injEq] at hd; rw [hd]; exact hid)
  obtain ⟨m, hm, -⟩ := (mem_keyIds hi.sorted).mp this
  have hl : log.latest id = some (m.userId, m.blob) := by rw [← hi.latest id, hm]; rfl
  obtain ⟨r, h1, h2, -⟩ := C63_get_latest h m.userId id
  obtain ⟨e, -⟩ := h2 m.blob hl
  exact ⟨m.userId, m.blob, r.1, hl, by rw [hg, h1, ← e]⟩

/-- Which ids `deleteKeyCommand` reports: without a date all keys of the user, with a date all keys, of any user, that have
expired by then. It raises an error only without date and user. -/
theorem C62_reported_partial {log : Log} {km : KeyMgr G1 G2 GT} (h : Reach env log km) (q : Query) :
    ((q.now = 0 ∧ q.userId = []) ∧ (delete km q).1 = .throw .runtimeError) ∨
    ∃ ids, (delete km q).1 = .ok ids ∧ ∀ id, id ∈ ids ↔ ∃ m, SMap.find id km.keys = some m ∧
      ((q.now = 0 ∧ m.userId = q.userId) ∨ (q.now ≠ 0 ∧ m.expires ≤ q.now)) := by
  by_cases hq : q.now = 0 ∧ q.userId = []
  · refine .inl ⟨hq, ?_⟩
    unfold delete
    simp only
    rw [if_pos hq]
  · refine .inr ⟨keyIds km q.userId q.now, ?_, fun id => mem_keyIds (reach_inv h).sorted⟩
    unfold delete
    simp only
    rw [if_neg hq]

/-! ### C79 -/

/-- No user ever holds two keys with the same function input (kind and text). -/
theorem C79_unique_inputs {log : Log} {km : KeyMgr G1 G2 GT} (h : Reach env log km) {u i j b1 b2 : Bytes} {f1 f2 : FInput}
    (h1 : log.latest i = some (u, b1)) (h2 : log.latest j = some (u, b2)) (g1 : Holds env b1 f1) (g2 : Holds env b2 f2)
    (ht : FInput.sameType f1 f2 = true) (hc : f1.compact = f2.compact) : i = j := by
  have hi := reach_inv h
  obtain ⟨m, hm, hm1, rfl⟩ := hi.get h1
  obtain ⟨n, hn, hn1, rfl⟩ := hi.get h2
  obtain ⟨i1, k1, k2⟩ := hi.holds i m hm
  obtain ⟨i2, k3, k4⟩ := hi.holds j n hn
  rw [k1.unique g1] at k2
  rw [k3.unique g2] at k4
  have st : ∀ a b : FInput, FInput.sameType a.reset b = FInput.sameType a b := by intro a b; cases a <;> cases b <;> rfl
  have st' : ∀ a b : FInput, FInput.sameType a b.reset = FInput.sameType a b := by intro a b; cases a <;> cases b <;> rfl
  apply hi.nodup i j m n hm hn (hm1.trans hn1.symm)
  · rcases k2 with k2 | k2 <;> rcases k4 with k4 | k4 <;> rw [k2, k4] <;> (try simp only [st, st']) <;> exact ht
  · rcases k2 with k2 | k2 <;> rcases k4 with k4 | k4 <;> rw [k2, k4] <;> (try simp only [FInput.compact_reset]) <;> exact hc

/-- A key whose header names no scheme is refused, whatever its body is; the key stored before under that id is gone. -/
theorem C79_no_scheme (km : KeyMgr G1 G2 GT) {u blob rnd body : Bytes} (hu : u ≠ []) {key : Key G1 G2 GT}
    (h : Key.parseHeader blob rnd = .ok (key, body)) (ha : key.alg = 0) (id : Bytes) (x : Nat) (c : Bool) :
    store env km u id blob x c rnd = (.ok false, { km with keys := SMap.erase id km.keys }) := by
  have hp : parseBlob env blob rnd = .ok none := by
    unfold parseBlob
    rw [h]
    simp only [Res.ok_bind, ha]
    rfl
  unfold store
  rw [if_neg (fun hh => hu hh.1)]
  simp only [hp]

set_option maxRecDepth 20000 in
example : ∃ body, Key.parseHeader (G1 := G1) (G2 := G2) (GT := GT)
    (BS.pack (BS.pack [] (libraryVersion :: 0 :: List.replicate 16 7)) [1]) [] =
      .ok (Key.new 0 [] (some (List.replicate 16 7)) [], body) := ⟨[1], rfl⟩

/-- A well-formed key is accepted exactly if the user has no key with the same input under another id. -/
theorem C79_accepted_iff {log : Log} {km : KeyMgr G1 G2 GT} (h : Reach env log km) {u blob : Bytes} (hu : u ≠ []) {f : FInput}
    (hf : Holds env blob f) (hn : f ≠ .null) (id : Bytes) (x : Nat) (c : Bool) (rnd : Bytes) :
    ∃ b, (store env km u id blob x c rnd).1 = .ok b ∧
      (b = false ↔ ∃ j b' g, j ≠ id ∧ log.latest j = some (u, b') ∧ Holds env b' g ∧ FInput.sameType f g = true ∧
        g.compact = f.compact) := by
  have hi := reach_inv h
  obtain ⟨r, sid, hp⟩ := hf
  have hp' : parseBlob env blob rnd = .ok (some (sid, f)) := by
    simp only [parseBlob, Key.parseHeader, construct_rnd blob r rnd] at hp ⊢
    exact hp
  have hr : f.Ready := (parseBlob_input hp).resolve_left hn
  have : ∃ s, f.compact = .ok s := by
    cases f with
    | null => exact absurd rfl hn
    | attrs l => exact ⟨_, rfl⟩
    | policy p => exact ⟨_, rfl⟩
  obtain ⟨s, hs⟩ := this
  have he := hi.erase id
  obtain ⟨b, h1, h2⟩ := findDup_defined (u := u) (new := s) (inp := f) (keys := SMap.erase id km.keys)
    (fun p hp => he.ready p.1 p.2 (SMap.find_of_mem he.sorted hp))
  have st' : ∀ a b : FInput, FInput.sameType a b.reset = FInput.sameType a b := by intro a b; cases a <;> cases b <;> rfl
  have key : b = true ↔ ∃ j b' g, j ≠ id ∧ log.latest j = some (u, b') ∧ Holds env b' g ∧ FInput.sameType f g = true ∧
        g.compact = f.compact := by
    rw [h2]
    constructor
    · rintro ⟨⟨j, m⟩, g1, rfl, g3, g4⟩
      have hfj := SMap.find_of_mem he.sorted g1
      obtain ⟨hj, hfj'⟩ := find_erase_some hfj
      obtain ⟨g, k1, k2⟩ := hi.holds j m hfj'
      refine ⟨j, m.blob, g, hj, by rw [← hi.latest j, hfj']; rfl, k1, ?_, ?_⟩
      · rcases k2 with k2 | k2
        · rw [← k2]; exact g3
        · rw [k2, st'] at g3; exact g3
      · rw [hs]
        rcases k2 with k2 | k2
        · rw [← k2]; exact g4
        · rw [k2, FInput.compact_reset] at g4; exact g4
    · rintro ⟨j, b', g, hj, k1, k2, k3, k4⟩
      obtain ⟨m, hm, hm1, rfl⟩ := hi.get k1
      obtain ⟨g', k5, k6⟩ := hi.holds j m hm
      rw [k5.unique k2] at k6
      refine ⟨(j, m), SMap.mem_of_find (by rw [SMap.find_erase, if_neg hj]; exact hm), hm1, ?_, ?_⟩
      · rcases k6 with k6 | k6
        · rw [k6]; exact k3
        · rw [k6, st']; exact k3
      · rw [← hs, ← k4]
        rcases k6 with k6 | k6
        · rw [k6]
        · rw [k6, FInput.compact_reset]
  unfold store
  rw [if_neg (fun h => hu h.1)]
  simp only [hp']
  rw [hs, Res.ok_bind, h1, ← hs]
  cases b with
  | true => exact ⟨false, rfl, by simp only [true_iff]; exact key.mp rfl⟩
  | false =>
    refine ⟨true, rfl, ?_⟩
    constructor
    · intro h; simp at h
    · intro h; exact absurd (key.mpr h) (by simp)

/-! ### C77 -/

/-- Successful stores of a user with one prefix, one after the other (other users may store in between). -/
inductive PrefixRun (env : KmEnv G1 G2 GT) (u pre : Bytes) : KeyMgr G1 G2 GT → List Bytes → KeyMgr G1 G2 GT → Prop
  | nil (km) : PrefixRun env u pre km [] km
  | step {km km1 km2 ids} (blob id : Bytes) (x : Nat) (c : Bool) (rnd : Bytes) :
      PrefixRun env u pre km ids km1 → storePrefix env km1 u pre blob x c rnd = (.ok id, km2) → id ≠ [] →
      PrefixRun env u pre km (ids ++ [id]) km2
  | other {km km1 km2 ids r} (v pre' blob : Bytes) (x : Nat) (c : Bool) (rnd : Bytes) : v ≠ u →
      PrefixRun env u pre km ids km1 → storePrefix env km1 v pre' blob x c rnd = (.ok r, km2) → r ≠ [] →
      PrefixRun env u pre km ids km2

theorem prefixRun_count {u pre : Bytes} {km km' : KeyMgr G1 G2 GT} {ids : List Bytes} (h : PrefixRun env u pre km ids km')
    (h0 : (userKeyCount km u).1 = 0) :
    ids = (List.range ids.length).map (fun i => pre ++ natDec (i % 20)) ∧ (userKeyCount km' u).1 = ids.length % 20 := by
  induction h with
  | nil => exact ⟨rfl, h0⟩
  | step blob id x c rnd _ hs hid ih =>
    obtain ⟨i1, i2⟩ := ih
    obtain ⟨s1, s2, -⟩ := storePrefix_id hs hid
    simp only [List.length_append, List.length_cons, List.length_nil, Nat.zero_add]
    refine ⟨?_, by rw [s2, i2]; omega⟩
    rw [List.range_succ, List.map_append, ← i1, s1, i2]
    rfl
  | other v pre' blob x c rnd hv _ hs hr ih =>
    obtain ⟨i1, i2⟩ := ih
    obtain ⟨-, -, s3⟩ := storePrefix_id hs hr
    exact ⟨i1, by rw [s3 u (fun h => hv h.symm), i2]⟩

/-- The 21st key that a user stores with a prefix gets the id of the first one, and replaces it. -/
theorem C77_prefix_ids_violated {u pre : Bytes} {km km' : KeyMgr G1 G2 GT} {ids : List Bytes}
    (h : PrefixRun env u pre km ids km') (h0 : (userKeyCount km u).1 = 0) (hn : ids.length = 20) {blob id : Bytes} {x : Nat} {c : Bool}
    {rnd : Bytes} {km'' : KeyMgr G1 G2 GT} (hs : storePrefix env km' u pre blob x c rnd = (.ok id, km'')) (hid : id ≠ []) :
    ids.head? = some id ∧ ∃ s, getKey km'' u id = .ok (s, blob) := by
  obtain ⟨h1, h2⟩ := prefixRun_count h h0
  obtain ⟨s1, -, -⟩ := storePrefix_id hs hid
  constructor
  · rw [h1, hn, s1, h2, hn]; rfl
  · obtain ⟨cn, c1, c2⟩ := storePrefix_cases env km' u pre blob x c rnd
    rw [hs] at c1 c2
    simp only at c1 c2
    rcases c1 with ⟨c1, c3⟩ | ⟨-, -, c1⟩
    · simp only [Res.ok.injEq] at c1
      rcases store_cases env { km' with counter := cn } u (pre ++ natDec (count km' u)) blob x c rnd with
        ⟨g1, -⟩ | ⟨g1, -⟩ | ⟨sid, inp, new, -, -, -, g1, -, g2⟩
      · rw [c3] at g1; simp at g1
      · rw [c3] at g1; exact absurd rfl g1
      · rw [g2] at c2
        simp only at c2
        simp only [getKey, c2, ← c1, SMap.find_insert, if_true, g1, Res.ok_bind]
        exact ⟨_, rfl⟩
    · exact absurd (c1 id rfl) hid

/-- Up to twenty keys that a user stores with one prefix get different ids. -/
theorem C77_prefix_ids_partial {u pre : Bytes} {km km' : KeyMgr G1 G2 GT} {ids : List Bytes}
    (h : PrefixRun env u pre km ids km') (h0 : (userKeyCount km u).1 = 0) (hn : ids.length ≤ 20) : ids.Nodup := by
  obtain ⟨h1, -⟩ := prefixRun_count h h0
  rw [h1]
  refine List.Nodup.map_on ?_ List.nodup_range
  intro a ha b hb e
  have := natDec_inj (List.append_cancel_left e)
  simp only [List.mem_range] at ha hb
  omega

/-! ### C78 -/

/-- The bytes of a well-formed key of a scheme without function input (symmetric, signature, public key): storing them is
undefined behaviour (a null input is dereferenced). -/
theorem C78_other_schemes_violated (hc : CodecOk env.codec) (km : KeyMgr G1 G2 GT) (key : Key G1 G2 GT) {u : Bytes} (hu : u ≠ [])
    (huid : key.uid.length = uidLen) (hv : key.version = libraryVersion) (hid : key.id.length < 2 ^ 31)
    (ha : key.alg ∈ ([60, 70, 71, 72, 100] : List UInt8)) (hs : SMap.Sorted key.comps) (h : AllStorable env.mktime env.codec key.comps)
    (hne : key.comps ≠ []) (hsize : ∀ b, Container.serialize env.codec key.comps = .ok b → b.length < 2 ^ 32)
    (id : Bytes) (x : Nat) (c : Bool) (rnd : Bytes) :
    ∃ out, key.exportBytes env.codec = .ok out ∧ (store env km u id out x c rnd).1 = .ub := by
  obtain ⟨out, body, k0, k1, h1, h2, h3, -, h4, -⟩ := C42_key_round_trip_partial hc key rnd huid hv hid
    (by simp only [List.mem_cons, List.not_mem_nil, or_false] at ha ⊢; rcases ha with h | h | h | h | h <;> simp [h]) hs h hne hsize
  have hk0 : k0.alg = key.alg := by
    unfold Key.loadBody at h3
    obtain ⟨comps, -, h3⟩ := (Res.bind_eq_ok _ _ _).mp h3
    simp only [Res.ok.injEq] at h3
    rw [← h4, ← h3]
  refine ⟨out, h1, ?_⟩
  unfold store
  rw [if_neg (fun h => hu h.1)]
  have hp : parseBlob env out rnd = .ok (some (key.alg, .null)) := by
    simp only [parseBlob, h2, Res.ok_bind, hk0, h3]
    simp only [List.mem_cons, List.not_mem_nil, or_false] at ha
    rcases ha with h | h | h | h | h <;>
      (simp only [Key.functionInput, h4, h]; rfl)
  simp only [hp]
  rfl

/-- Every key that a key manager holds, after any history, has a function input. What is missing: that keys without one are rejected
with an error. -/
theorem C78_held_partial {log : Log} {km : KeyMgr G1 G2 GT} (h : Reach env log km) {id u blob : Bytes} (hl : log.latest id = some (u, blob)) :
    ∃ f, Holds env blob f ∧ f ≠ .null := by
  have hi := reach_inv h
  have h1 := hi.latest id
  rw [hl] at h1
  obtain ⟨m, h2, h3⟩ := Option.map_eq_some_iff.mp h1
  obtain ⟨f, h4, h5⟩ := hi.holds id m h2
  have h6 := hi.ready id m h2
  cases h3
  refine ⟨f, h4, ?_⟩
  rintro rfl
  rcases h5 with h5 | h5 <;> rw [h5] at h6 <;> exact h6

/-- Exactly which stores are undefined: those whose bytes cannot be read without undefined behaviour, and those of keys without
function input. -/
theorem C78_undefined_iff {log : Log} {km : KeyMgr G1 G2 GT} (h : Reach env log km) {u : Bytes} (hu : u ≠ []) (blob id : Bytes)
    (x : Nat) (c : Bool) (rnd : Bytes) :
    (store env km u id blob x c rnd).1 = .ub ↔
      parseBlob env blob rnd = .ub ∨ ∃ sid, parseBlob env blob rnd = .ok (some (sid, .null)) := by
  have he := (reach_inv h).erase id
  unfold store
  rw [if_neg (fun hh => hu hh.1)]
  cases hp : parseBlob env blob rnd with
  | throw e => simp
  | ub => simp
  | abort => simp
  | ok r =>
    match r with
    | none => simp
    | some (sid, inp) =>
      cases inp with
      | null => simp [FInput.compact]
      | attrs l =>
        obtain ⟨b, h1, -⟩ := findDup_defined (u := u) (new := l.compact) (inp := .attrs l) (keys := SMap.erase id km.keys)
          (fun p hp => he.ready p.1 p.2 (SMap.find_of_mem he.sorted hp))
        simp only [FInput.compact, Res.ok_bind, h1]
        cases b <;> simp
      | policy p =>
        obtain ⟨b, h1, -⟩ := findDup_defined (u := u) (new := p.compact) (inp := .policy p) (keys := SMap.erase id km.keys)
          (fun p hp => he.ready p.1 p.2 (SMap.find_of_mem he.sorted hp))
        simp only [FInput.compact, Res.ok_bind, h1]
        cases b <;> simp

end Abe.KeyMgr

/-! ### Concrete histories that meet the hypotheses -/
namespace Abe.KeyMgr.Ex

/-- One admissible `std::sort`. -/
def refs : RefSort where
  fn l := l.insertionSort (fun a b => a.2 ≤ b.2)
  perm l := List.perm_insertionSort _ l
  sorted l := by
    have : Std.Total (fun a b : Bytes × Int => a.2 ≤ b.2) := ⟨fun a b => Int.le_total _ _⟩
    have : IsTrans (Bytes × Int) (fun a b : Bytes × Int => a.2 ≤ b.2) := ⟨fun a b c h1 h2 => Int.le_trans h1 h2⟩
    exact List.pairwise_insertionSort _ l

/-- Everything that the theorems leave open, chosen. -/
def env : KmEnv (Option UInt8) (Option UInt8) (Option UInt8) := ⟨Scheme.Toy.mk0, ToyCodec.codec, LsssEx.sort, refs, false⟩

/-- The bytes of a ciphertext-policy key for a list. -/
def cpKey (s : Bytes) : Bytes :=
  match createAttributeList Scheme.Toy.mk0 s with
  | .ok (some l) =>
    match ({ alg := 101, uid := List.replicate 16 7, id := b!"x", comps := [(b!"input", .attrs l)] } : Key (Option UInt8) (Option UInt8)
        (Option UInt8)).exportBytes ToyCodec.codec with
    | .ok b => b
    | _ => []
  | _ => []

/-- The bytes of a key-policy key for a policy. -/
def kpKey (s : Bytes) : Bytes :=
  match ({ alg := 102, uid := List.replicate 16 7, id := b!"x", comps := [(b!"input", .bytes s)] } : Key (Option UInt8) (Option UInt8)
        (Option UInt8)).exportBytes ToyCodec.codec with
    | .ok b => b
    | _ => []

/-- A new key manager. -/
def km0 : KeyMgr (Option UInt8) (Option UInt8) (Option UInt8) := {}
/-- Three stores. -/
def km1 := (store env km0 b!"alice" b!"k1" (cpKey b!"|a|c") 100 false []).2
def km2 := (store env km1 b!"bob" b!"k2" (cpKey b!"|a|c") 200 false []).2
def km3 := (store env km2 b!"alice" b!"k3" (kpKey b!"a and (b or c)") 300 false []).2
/-- The policy `a and (b or c)`. -/
def pol : FInput := match createPolicyTree Scheme.Toy.mk0 b!"a and (b or c)" with | .ok (some p) => .policy p | _ => .null
/-- The list `|a|c`. -/
@[irreducible] def lst : FInput := match createAttributeList Scheme.Toy.mk0 b!"|a|c" with | .ok (some l) => .attrs l | _ => .null

theorem fst_true {α : Type} {p : Res Bool × α} (h : (match p.1 with | .ok true => true | _ => false) = true) : p = (.ok true, p.2) := by
  obtain ⟨a, b⟩ := p
  cases a with
  | ok v => cases v <;> simp_all
  | _ => simp at h

theorem reach3 : Reach env [(b!"k3", some (b!"alice", kpKey b!"a and (b or c)")), (b!"k2", some (b!"bob", cpKey b!"|a|c")),
    (b!"k1", some (b!"alice", cpKey b!"|a|c"))] km3 :=
  .stored _ _ _ 300 false [] (.stored _ _ _ 200 false [] (.stored _ _ _ 100 false [] .new (fst_true (by decide +kernel)))
    (fst_true (by decide +kernel))) (fst_true (by decide +kernel))

/-- The input in the bytes of a key. -/
@[irreducible] def held (blob : Bytes) : FInput := match parseBlob env blob [] with | .ok (some r) => r.2 | _ => .null

theorem holds_held {blob : Bytes} (h : (match parseBlob env blob [] with | .ok (some _) => true | _ => false) = true) :
    Holds env blob (held blob) := by
  unfold Holds held
  cases hp : parseBlob env blob [] with
  | ok o =>
    cases o with
    | none => rw [hp] at h; simp at h
    | some r => exact ⟨[], r.1, hp⟩
  | _ => rw [hp] at h; simp at h

/-- `opens`, to be computed. -/
def opensB : FInput → FInput → Bool
  | .attrs l, .policy p => match p.root with | some t => sat l.attrs t | none => false
  | .policy p, .attrs l => match p.root with | some t => sat l.attrs t | none => false
  | _, _ => false

theorem opens_of {g f : FInput} (h : opensB g f = true) : g.opens f := by
  cases g <;> cases f <;> simp only [opensB, Bool.false_eq_true] at h
  all_goals
    rename_i a b
    first
    | (cases hr : a.root with
       | none => rw [hr] at h; simp at h
       | some t => rw [hr] at h; exact ⟨t, hr, h⟩)
    | (cases hr : b.root with
       | none => rw [hr] at h; simp at h
       | some t => rw [hr] at h; exact ⟨t, hr, h⟩)

theorem pol_ready : pol.Ready := by
  unfold pol
  cases h : createPolicyTree Scheme.Toy.mk0 b!"a and (b or c)" with
  | ok o =>
    cases o with
    | some p => exact createPolicyTree_ready h
    | none => exact absurd h (by have : (match createPolicyTree Scheme.Toy.mk0 b!"a and (b or c)" with
        | .ok (some _) => true | _ => false) = true := by decide +kernel
                                 intro h; rw [h] at this; simp at this)
  | _ => exact absurd h (by have : (match createPolicyTree Scheme.Toy.mk0 b!"a and (b or c)" with
        | .ok (some _) => true | _ => false) = true := by decide +kernel
                            intro h; rw [h] at this; simp at this)

/-- Results as booleans. -/
def isOk {α : Type} (r : Res α) (p : α → Bool) : Bool := match r with | .ok a => p a | _ => false

/-- C63, C65: in `km3` the first key of Alice opens the policy and is selected, and Alice reads it. -/
example : (held (cpKey b!"|a|c")).opens pol ∧ Holds env (cpKey b!"|a|c") (held (cpKey b!"|a|c")) ∧ pol.Ready ∧
    isOk (search env km3 ⟨false, 0, b!"alice"⟩ pol) (fun r => r.1 = b!"k1") = true ∧
    isOk (getKey km3 b!"alice" b!"k1") (fun r => r.2 = cpKey b!"|a|c" ∧ r.1 ≠ []) = true ∧
    isOk (getKey km3 b!"bob" b!"k1") (fun r => r = ([], [])) = true :=
  ⟨opens_of (by decide +kernel), holds_held (by decide +kernel), pol_ready, by decide +kernel, by decide +kernel, by decide +kernel⟩

/-- C65, the other direction of the schemes: the policy key of Alice opens the list. -/
example : (held (kpKey b!"a and (b or c)")).opens lst ∧
    isOk (search env km3 ⟨false, 0, b!"alice"⟩ lst) (fun r => r.1 = b!"k3") = true ∧
    isOk (search env km3 ⟨false, 0, b!"bob"⟩ lst) (fun r => r.1 = []) = true :=
  by
  refine ⟨?_, by decide +kernel, by decide +kernel⟩
  apply opens_of
  decide +kernel

/-- C66: two keys of different cost, the cheaper one comes second. -/
def km4 := (store env km3 b!"carol" b!"m1" (kpKey b!"a and c") 300 false []).2
def km5 := (store env km4 b!"carol" b!"m2" (kpKey b!"a or b") 300 false []).2
example : (held (kpKey b!"a and c")).opens lst ∧ (held (kpKey b!"a or b")).opens lst ∧
    isOk (search env km5 ⟨false, 0, b!"carol"⟩ lst) (fun r => r.1 = b!"m1") = true ∧
    isOk (search env km5 ⟨true, 0, b!"carol"⟩ lst) (fun r => r.1 = b!"m2") = true :=
  by
  refine ⟨?_, ?_, by decide +kernel, by decide +kernel⟩ <;> apply opens_of <;> decide +kernel

/-- C65: the same key under the empty id. -/
def kmE := (store env km3 b!"carol" [] (cpKey b!"|a|c") 100 false []).2
example : Reach env (([], some (b!"carol", cpKey b!"|a|c")) :: [(b!"k3", some (b!"alice", kpKey b!"a and (b or c)")),
    (b!"k2", some (b!"bob", cpKey b!"|a|c")), (b!"k1", some (b!"alice", cpKey b!"|a|c"))]) kmE :=
  .stored _ _ _ 100 false [] reach3 (fst_true (by decide +kernel))
example : isOk (search env kmE ⟨false, 0, b!"carol"⟩ pol) (fun r => r.1 = []) = true := by decide +kernel

/-- C62: a non-empty report. -/
example : isOk (delete km3 ⟨false, 0, b!"alice"⟩).1 (fun r => r = [b!"k1", b!"k3"]) = true ∧
    isOk (delete km3 ⟨false, 250, b!"alice"⟩).1 (fun r => r = [b!"k1", b!"k2"]) = true := by decide +kernel

/-- C64, C67: the owner had something to lose, both to a successful and to a failing store. -/
example : isOk (getKey km3 b!"bob" b!"k2") (fun r => r.2 = cpKey b!"|a|c") = true ∧
    isOk (store env km3 b!"alice" b!"k2" (cpKey b!"|b|c") 0 false []).1 (fun r => r) = true ∧
    isOk (store env km3 b!"alice" b!"k2" (cpKey b!"|a|c") 0 false []).1 (fun r => !r) = true := by decide +kernel

/-- C64: both users start with no key. -/
example : isOk (storePrefix env km0 b!"bob" b!"p" (cpKey b!"|a|c") 0 false []).1 (fun r => r = b!"p0") = true ∧
    isOk (storePrefix env (storePrefix env km0 b!"bob" b!"p" (cpKey b!"|a|c") 0 false []).2 b!"alice" b!"p" (cpKey b!"|a|c") 0 false []).1
      (fun r => r = b!"p0") = true := by decide +kernel

/-- C79: the same input again, under another id. -/
example : isOk (store env km3 b!"alice" b!"k9" (cpKey b!"|a|c") 0 false []).1 (fun r => !r) = true ∧
    isOk (store env km3 b!"alice" b!"k9" (cpKey b!"|c") 0 false []).1 (fun r => r) = true := by decide +kernel

/-- The state after `n` stores of different keys of Alice with one prefix. -/
def many : Nat → KeyMgr (Option UInt8) (Option UInt8) (Option UInt8)
  | 0 => km0
  | n + 1 => (storePrefix env (many n) b!"alice" b!"p" (cpKey (b!"|a" ++ natDec n)) 0 false []).2

/-- The same run, with a check that every store succeeds. -/
def allOk : Nat → Bool
  | 0 => true
  | n + 1 => allOk n && isOk (storePrefix env (many n) b!"alice" b!"p" (cpKey (b!"|a" ++ natDec n)) 0 false []).1
      (fun r => !r.isEmpty)

theorem allOk_run : ∀ n, allOk n = true → ∃ ids, ids.length = n ∧ PrefixRun env b!"alice" b!"p" km0 ids (many n)
  | 0, _ => ⟨[], rfl, .nil _⟩
  | n + 1, h => by
    simp only [allOk, Bool.and_eq_true] at h
    obtain ⟨ids, h1, h2⟩ := allOk_run n h.1
    have h3 := h.2
    cases hr : (storePrefix env (many n) b!"alice" b!"p" (cpKey (b!"|a" ++ natDec n)) 0 false []).1 with
    | ok id =>
      rw [hr] at h3
      refine ⟨ids ++ [id], by simp [h1], .step _ id _ _ _ h2 (Prod.ext hr rfl) ?_⟩
      rintro rfl
      simp [isOk] at h3
    | _ => rw [hr] at h3; simp [isOk] at h3

/-- C77: twenty stores with one prefix, and a twenty-first. -/
example : ∃ ids, ids.length = 20 ∧ PrefixRun env b!"alice" b!"p" km0 ids (many 20) ∧
    isOk (storePrefix env (many 20) b!"alice" b!"p" (cpKey b!"|b") 0 false []).1 (fun r => r = b!"p0") = true := by
  obtain ⟨ids, h1, h2⟩ := allOk_run 20 (by decide +kernel)
  exact ⟨ids, h1, h2, by decide +kernel⟩

/-- C78: a symmetric key. -/
example : CodecOk env.codec ∧ SMap.Sorted ToyCodec.comps ∧ AllStorable env.mktime env.codec ToyCodec.comps ∧ ToyCodec.comps ≠ [] ∧
    (70 : UInt8) ∈ ([60, 70, 71, 72, 100] : List UInt8) ∧
    isOk (Container.serialize env.codec ToyCodec.comps) (fun b => b.length < 2 ^ 32) = true :=
  ⟨ToyCodec.codec_ok, ToyCodec.comps_sorted, ToyCodec.comps_ok, by simp [ToyCodec.comps], by decide, by decide +kernel⟩

end Abe.KeyMgr.Ex
