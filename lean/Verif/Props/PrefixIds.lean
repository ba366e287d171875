import Verif.Props.KeyMgr
/-!
# Which ids keys get that are stored with a prefix, in all histories: C164

`Given` is an id that was returned: user, prefix, id. The specification is the prefix, followed by the number of ids that the
user was given before, modulo 20, in decimal.
-/
set_option linter.unusedSimpArgs false
set_option linter.unusedSectionVars false
set_option autoImplicit false
namespace Abe.KeyMgr
variable {G1 G2 GT : Type}

/-- An id that was given to a user. -/
structure Given where
  user : Bytes
  pre : Bytes
  id : Bytes
  deriving DecidableEq

/-- How many ids a user was given. -/
def givenTo (u : Bytes) (l : List Given) : Nat := (l.filter fun g => g.user = u).length

/-- All commands, with any results; the ids that were given, oldest first. -/
inductive Named (env : KmEnv G1 G2 GT) : List Given → KeyMgr G1 G2 GT → Prop
  | new : Named env [] {}
  | store {l km} (u id blob : Bytes) (x : Nat) (c : Bool) (rnd : Bytes) : Named env l km → Named env l (store env km u id blob x c rnd).2
  | given {l km km' id} (u pre blob : Bytes) (x : Nat) (c : Bool) (rnd : Bytes) : Named env l km →
      storePrefix env km u pre blob x c rnd = (.ok id, km') → id ≠ [] → Named env (l ++ [⟨u, pre, id⟩]) km'
  | notGiven {l km km' r} (u pre blob : Bytes) (x : Nat) (c : Bool) (rnd : Bytes) : Named env l km →
      storePrefix env km u pre blob x c rnd = (r, km') → (∀ id, r = .ok id → id = []) → Named env l km'
  | counted {l km} (u : Bytes) : Named env l km → Named env l (userKeyCount km u).2
  | passphrase {l km} (p u s : Bytes) : Named env l km → Named env l (setPassphrase km p u s)
  | searched {l km km' f f' id} (q : Query) : Named env l km → search env km q f = .ok (id, km', f') → Named env l km'
  | deleted {l km} (q : Query) : Named env l km → Named env l (delete km q).2

variable {env : KmEnv G1 G2 GT}

theorem store_counter (km : KeyMgr G1 G2 GT) (u i blob : Bytes) (x : Nat) (c : Bool) (rnd : Bytes) :
    (store env km u i blob x c rnd).2.counter = km.counter := by
  rcases store_cases env km u i blob x c rnd with ⟨-, h2, -⟩ | ⟨-, h2⟩ | ⟨sid, inp, new, -, -, -, -, -, h3⟩
  · rw [h2]
  · rw [h2]
  · rw [h3]

theorem count_start (km : KeyMgr G1 G2 GT) (u v : Bytes) :
    count (if (SMap.find u km.counter).isSome then km else { km with counter := SMap.insert u 0 km.counter } : KeyMgr G1 G2 GT) v =
      count km v := by
  split
  · rfl
  · rename_i hn
    simp only [Option.not_isSome_iff_eq_none] at hn
    simp only [count, SMap.find_insert]
    by_cases hv : v = u
    · rw [if_pos hv, hv, hn]; rfl
    · rw [if_neg hv]

theorem storePrefix_none {km km' : KeyMgr G1 G2 GT} {u pre blob rnd : Bytes} {x : Nat} {c : Bool} {r : Res Bytes}
    (h : storePrefix env km u pre blob x c rnd = (r, km')) (hr : ∀ id, r = .ok id → id = []) (v : Bytes) :
    count km' v = count km v := by
  have hsc : ∀ (km : KeyMgr G1 G2 GT) i, count (store env km u i blob x c rnd).2 v = count km v := by
    intro km i; simp only [count, store_counter]
  unfold storePrefix at h
  simp only at h
  split at h <;> (simp only [Prod.mk.injEq] at h; obtain ⟨h1, rfl⟩ := h)
  · have := hr _ h1.symm
    have hne := natDec_ne_nil
    simp [hne] at this
  all_goals rw [hsc, count_start]

theorem searchLoop_counter (e : Bool) : ∀ (ids : List Bytes) (km : KeyMgr G1 G2 GT) (f : FInput) (acc : List (Bytes × Int))
    (r : Option Bytes × List (Bytes × Int) × KeyMgr G1 G2 GT × FInput), searchLoop env e ids km f acc = .ok r →
    r.2.2.1.counter = km.counter := by
  intro ids
  induction ids with
  | nil => intro km f acc r h; cases h; rfl
  | cons id ids ih =>
    intro km f acc r h
    unfold searchLoop at h
    split at h
    · split at h <;> cases h
    · rw [Res.bind_eq_ok] at h
      obtain ⟨⟨q, m', f'⟩, -, h⟩ := h
      simp only at h
      split at h
      · split at h
        · exact (ih _ _ _ _ h :)
        · cases h; rfl
      · exact (ih _ _ _ _ h :)

theorem search_counter {km km' : KeyMgr G1 G2 GT} {q : Query} {f f' : FInput} {id : Bytes}
    (h : search env km q f = .ok (id, km', f')) : km'.counter = km.counter := by
  have key : ∀ f, (do
      let (first, acc, km', f') ← searchLoop env q.efficient (filterKeys km q.userId f) km f []
      match first with
      | some id => .ok (id, km', f')
      | none => match acc with
        | [] => .ok ([], km', f')
        | _ => match env.refs.fn acc with
          | (id, _) :: _ => .ok (id, km', f')
          | [] => .ub : Res (Bytes × KeyMgr G1 G2 GT × FInput)) = .ok (id, km', f') → km'.counter = km.counter := by
    intro f h
    rw [Res.bind_eq_ok] at h
    obtain ⟨⟨first, acc, k, g⟩, h1, h⟩ := h
    have h2 := searchLoop_counter _ _ _ _ _ _ h1
    simp only at h h2
    rw [← h2]
    split at h
    · cases h; rfl
    · split at h
      · cases h; rfl
      · split at h <;> cases h
        rfl
  unfold search at h
  split at h
  · cases h
  · exact key _ h

theorem delete_counter (km : KeyMgr G1 G2 GT) (q : Query) : (delete km q).2.counter = km.counter := by
  unfold delete
  simp only
  split
  · rfl
  · simp only
    split <;> rfl

theorem givenTo_append (u : Bytes) (l : List Given) (g : Given) :
    givenTo u (l ++ [g]) = givenTo u l + if g.user = u then 1 else 0 := by
  unfold givenTo
  rw [List.filter_append, List.length_append]
  by_cases h : g.user = u <;> simp [h]

/-- The counter of a user, after any history. -/
theorem C164_count {l : List Given} {km : KeyMgr G1 G2 GT} (h : Named env l km) (u : Bytes) :
    (userKeyCount km u).1 = givenTo u l % 20 := by
  have hc : ∀ (km : KeyMgr G1 G2 GT) v, (userKeyCount km v).1 = count km v := fun _ _ => rfl
  induction h with
  | new => rfl
  | store u' id blob x c rnd _ ih => rw [← ih, hc, hc]; simp only [count, store_counter]
  | given u' pre blob x c rnd _ hs hid ih =>
    obtain ⟨-, s2, s3⟩ := storePrefix_id hs hid
    rw [givenTo_append]
    by_cases hu : u' = u
    · subst hu
      rw [s2, ih, if_pos rfl]; omega
    · rw [s3 u (fun e => hu e.symm), ih, if_neg hu, Nat.add_zero]
  | notGiven u' pre blob x c rnd _ hs hr ih => rw [← ih, hc, hc]; exact storePrefix_none hs hr u
  | counted u' _ ih => rw [← ih, hc, hc]; exact count_start _ u' u
  | passphrase p u' s _ ih => rw [← ih]; rfl
  | searched q _ hs ih => rw [← ih, hc, hc]; simp only [count, search_counter hs]
  | deleted q _ ih => rw [← ih, hc, hc]; simp only [count, delete_counter]

/-- Every id that was given: prefix and number of the ids given to the user before, modulo 20. -/
theorem C164_ids {l : List Given} {km : KeyMgr G1 G2 GT} (h : Named env l km) (i : Nat) (g : Given) (hi : l[i]? = some g) :
    g.id = g.pre ++ natDec (givenTo g.user (l.take i) % 20) := by
  induction h with
  | new => simp at hi
  | given u pre blob x c rnd hn hs hid ih =>
    rename_i l0 km0 km1 id
    by_cases hl : i < l0.length
    · rw [List.getElem?_append_left hl] at hi
      rw [List.take_append_of_le_length (Nat.le_of_lt hl)]
      exact ih hi
    · rw [List.getElem?_append_right (by omega)] at hi
      have h0 : i = l0.length := by
        have := (List.getElem?_eq_some_iff.mp hi).1
        simp only [List.length_cons, List.length_nil] at this
        omega
      subst h0
      rw [Nat.sub_self] at hi
      cases hi
      obtain ⟨s1, -, -⟩ := storePrefix_id hs hid
      rw [List.take_left, ← C164_count hn u]
      exact s1
  | store _ _ _ _ _ _ _ ih => exact ih hi
  | notGiven _ _ _ _ _ _ _ _ _ ih => exact ih hi
  | counted _ _ ih => exact ih hi
  | passphrase _ _ _ _ ih => exact ih hi
  | searched _ _ _ ih => exact ih hi
  | deleted _ _ ih => exact ih hi

/-- Two ids with the same prefix, of any two users: equal exactly if the numbers of ids given before agree modulo 20. -/
theorem C164_equal {l : List Given} {km : KeyMgr G1 G2 GT} (h : Named env l km) (i j : Nat) (a b : Given) (hi : l[i]? = some a)
    (hj : l[j]? = some b) (hp : a.pre = b.pre) :
    a.id = b.id ↔ givenTo a.user (l.take i) % 20 = givenTo b.user (l.take j) % 20 := by
  rw [C164_ids h i a hi, C164_ids h j b hj, hp]
  constructor
  · intro e; exact natDec_inj (List.append_cancel_left e)
  · intro e; rw [e]

/-- At most 20 ids per prefix, in all histories and for all users together. -/
theorem C164_twenty {l : List Given} {km : KeyMgr G1 G2 GT} (h : Named env l km) (pre : Bytes) (g : Given) (hg : g ∈ l) (hp : g.pre = pre) :
    ∃ k, k < 20 ∧ g.id = pre ++ natDec k := by
  obtain ⟨i, hi⟩ := List.getElem?_of_mem hg
  exact ⟨_, Nat.mod_lt _ (by omega), hp ▸ C164_ids h i g hi⟩

/-! Twenty ids of Alice, and then the first one again. -/

theorem Ex.allOk_named : ∀ n, Ex.allOk n = true → ∃ l : List Given, l.length = n ∧ (∀ g ∈ l, g.user = b!"alice" ∧ g.pre = b!"p") ∧
    Named Ex.env l (Ex.many n) := by
  intro n
  induction n with
  | zero => intro _; exact ⟨[], rfl, by simp, .new⟩
  | succ n ih =>
    intro h
    simp only [Ex.allOk, Bool.and_eq_true] at h
    obtain ⟨l, h1, h2, h4⟩ := ih h.1
    have h3 := h.2
    cases hr : (storePrefix Ex.env (Ex.many n) b!"alice" b!"p" (Ex.cpKey (b!"|a" ++ natDec n)) 0 false []).1 with
    | ok id =>
      rw [hr] at h3
      refine ⟨l ++ [⟨b!"alice", b!"p", id⟩], by simp [h1], ?_, .given _ _ _ _ _ _ h4 (Prod.ext hr rfl) ?_⟩
      · intro g hg
        rcases List.mem_append.mp hg with hg | hg
        · exact h2 g hg
        · rw [List.mem_singleton.mp hg]; exact ⟨rfl, rfl⟩
      · rintro rfl
        simp [Ex.isOk] at h3
    | _ => rw [hr] at h3; simp [Ex.isOk] at h3

example : ∃ l : List Given, l.length = 21 ∧ Named Ex.env l (Ex.many 21) ∧ ∃ a b, l[0]? = some a ∧ l[20]? = some b ∧ a.pre = b.pre ∧
    a.id = b.id := by
  obtain ⟨l, h1, h2, h3⟩ := Ex.allOk_named 21 (by decide +kernel)
  have ha : l[0]? = some l[0] := List.getElem?_eq_getElem (by omega)
  have hb : l[20]? = some l[20] := List.getElem?_eq_getElem (by omega)
  have hp : l[0].pre = l[20].pre := by rw [(h2 _ (List.getElem_mem _)).2, (h2 _ (List.getElem_mem _)).2]
  refine ⟨l, h1, h3, _, _, ha, hb, hp, (C164_equal h3 0 20 _ _ ha hb hp).mpr ?_⟩
  have e : ∀ n, n ≤ 21 → givenTo b!"alice" (l.take n) = n := by
    intro n hn
    unfold givenTo
    rw [List.filter_eq_self.mpr (fun g hg => by simpa using (h2 g (List.mem_of_mem_take hg)).1), List.length_take]
    omega
  rw [(h2 _ (List.getElem_mem _)).1, (h2 _ (List.getElem_mem _)).1, e 0 (by omega), e 20 (by omega)]

end Abe.KeyMgr
