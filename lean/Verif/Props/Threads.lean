import Verif.Proof.KeyMgrThreads
/-!
# C114: several threads use one key manager
-/
set_option linter.unusedSimpArgs false
set_option linter.unusedSectionVars false
set_option autoImplicit false
namespace Abe

/-- The result of a command that did not come back properly: undefined behaviour or a stop of the process. -/
def KmRes.Fatal : KmRes → Prop
  | .stored r => r = .ub ∨ r = .abort
  | .id r => r = .ub ∨ r = .abort
  | .key r => r = .ub ∨ r = .abort
  | .found r => r = .ub ∨ r = .abort
  | .ids r => r = .ub ∨ r = .abort
  | _ => False

namespace Conc
variable {ob σ α β γ κ : Type}

theorem Prog.bind_assoc (p : Prog ob σ α) (f : α → Prog ob σ β) (g : β → Prog ob σ γ) :
    (p.bind f).bind g = p.bind fun a => (f a).bind g := by
  induction p with
  | ret a => rfl
  | act x u n ih => simp only [Prog.bind]; congr; funext s; exact ih s
  | lock p ih => simp only [Prog.bind, ih]
  | unlock p ih => simp only [Prog.bind, ih]

/-- The calls made and the calls to make are the calls given. -/
theorem calls_todo {prog : κ → Prog ob σ α} {s0 : σ} {todo : Nat → List κ} {evs : List (Event κ α)} {c : Cfg ob σ κ α}
    (h : Exec prog (start s0 todo) evs c) (i : Nat) : callsOf i evs ++ (c.th i).todo = todo i := by
  induction h with
  | nil => rfl
  | snoc h hs ih =>
    rw [callsOf_append]
    cases hs with
    | call j k ks hj =>
      by_cases hij : j = i
      · subst hij
        rw [hj] at ih
        simp only [callsOf, if_true, Function.update_self]
        rw [← ih]
        simp
      · rw [show callsOf i [Event.call (α := α) j k] = [] from if_neg hij, List.append_nil]
        simp only [Function.update_of_ne (Ne.symm hij)]
        exact ih
    | act j ks x u n hj =>
      by_cases hij : j = i
      · subst hij
        rw [hj] at ih
        simp only [callsOf, List.append_nil, Function.update_self]
        exact ih
      · simp only [callsOf, List.append_nil, Function.update_of_ne (Ne.symm hij)]
        exact ih
    | lock j ks p hj =>
      by_cases hij : j = i
      · subst hij
        rw [hj] at ih
        simp only [callsOf, List.append_nil, Function.update_self]
        exact ih
      · simp only [callsOf, List.append_nil, Function.update_of_ne (Ne.symm hij)]
        exact ih
    | unlock j ks p hj =>
      by_cases hij : j = i
      · subst hij
        rw [hj] at ih
        simp only [callsOf, List.append_nil, Function.update_self]
        exact ih
      · simp only [callsOf, List.append_nil, Function.update_of_ne (Ne.symm hij)]
        exact ih
    | done j ks a hj =>
      by_cases hij : j = i
      · subst hij
        rw [hj] at ih
        simp only [callsOf, List.append_nil, Function.update_self]
        exact ih
      · simp only [callsOf, List.append_nil, Function.update_of_ne (Ne.symm hij)]
        exact ih

theorem mem_ofThread {i : Nat} {k : κ} {a : α} {L : List (Nat × κ × α)} (h : (i, k, a) ∈ L) : (k, a) ∈ ofThread i L :=
  List.mem_map.mpr ⟨(i, k, a), List.mem_filter.mpr ⟨h, by simp⟩, rfl⟩

theorem length_two {L : List (Nat × κ × α)} (h : ∀ x ∈ L, x.1 = 0 ∨ x.1 = 1) :
    L.length = (ofThread 0 L).length + (ofThread 1 L).length := by
  induction L with
  | nil => rfl
  | cons x L ih =>
    have ih := ih fun y hy => h y (List.mem_cons_of_mem _ hy)
    simp only [ofThread, List.length_map, List.filter_cons, List.length_cons] at ih ⊢
    rcases h x (by simp) with hx | hx <;> simp [hx] <;> omega

theorem one_entry {l : List (κ × α)} {k : κ} {a : α} (h1 : l.map Prod.fst <+: [k]) (h2 : [a] <+: l.map Prod.snd) :
    l = [(k, a)] := by
  have hl := h1.length_le
  match l with
  | [] => simp at h2
  | [(k', a')] =>
    simp only [List.map_cons, List.map_nil, List.cons_prefix_cons, List.prefix_nil, and_true, List.nil_prefix] at h1 h2
    rw [h1, h2]
  | _ :: _ :: _ => simp at hl

/-- Two calls in a row. -/
theorem legal_two {sem : κ → σ → α × σ} {s s2 : σ} {x y : Nat × κ × α} (h : Legal sem s [x, y] s2) :
    ∃ s1, sem x.2.1 s = (x.2.2, s1) ∧ sem y.2.1 s1 = (y.2.2, s2) := by
  generalize hL : [x, y] = L at h
  cases h with
  | nil => simp at hL
  | snoc i k a h hs =>
    rename_i s1 L'
    have h1 := List.append_inj' (s₁ := [x]) (t₁ := [y]) hL rfl
    obtain ⟨rfl, h2⟩ := h1
    simp only [List.cons.injEq, and_true] at h2
    subst h2
    generalize hL' : [x] = L at h
    cases h with
    | nil => simp at hL'
    | snoc i' k' a' h' hs' =>
      have h3 := List.append_inj' (s₁ := []) (t₁ := [x]) hL' rfl
      obtain ⟨rfl, h4⟩ := h3
      simp only [List.cons.injEq, and_true] at h4
      subst h4
      generalize hL2 : ([] : List (Nat × κ × α)) = L at h'
      cases h' with
      | nil => exact ⟨s1, hs', hs⟩
      | snoc => simp at hL2

/-- Two threads. -/
def two (s : σ) (o : Option Nat) (t0 t1 : Thread ob σ κ α) : Cfg ob σ κ α :=
  ⟨s, o, fun i => match i with | 0 => t0 | 1 => t1 | _ => ⟨[], none⟩⟩

theorem two_start (s : σ) (k0 k1 : κ) (todo : Nat → List κ) (h0 : todo 0 = [k0]) (h1 : todo 1 = [k1])
    (h2 : ∀ n, todo (n + 2) = []) : (start s todo : Cfg ob σ κ α) = two s none ⟨[k0], none⟩ ⟨[k1], none⟩ := by
  simp only [start, two, Cfg.mk.injEq, true_and]
  funext i
  match i with
  | 0 => simp only [h0]
  | 1 => simp only [h1]
  | n + 2 => simp only [h2]

theorem two_update0 (s : σ) (o : Option Nat) (t0 t1 t : Thread ob σ κ α) :
    Function.update (two s o t0 t1).th 0 t = (two s o t t1).th := by
  funext i
  match i with
  | 0 => simp [two]
  | 1 => simp [two]
  | n + 2 => simp [two]

theorem two_update1 (s : σ) (o : Option Nat) (t0 t1 t : Thread ob σ κ α) :
    Function.update (two s o t0 t1).th 1 t = (two s o t0 t).th := by
  funext i
  match i with
  | 0 => simp [two]
  | 1 => simp [two]
  | n + 2 => simp [two]

section two
variable {prog : κ → Prog ob σ α} {c0 : Cfg ob σ κ α} {evs : List (Event κ α)} {s : σ} {o : Option Nat} {t0 t1 : Thread ob σ κ α}

theorem two_call0 {k : κ} {ks : List κ} (h : Exec prog c0 evs (two s o ⟨k :: ks, none⟩ t1)) :
    Exec prog c0 (evs ++ [.call 0 k]) (two s o ⟨ks, some (prog k)⟩ t1) := by
  have := Exec.snoc h (.call _ 0 k ks rfl)
  rw [two_update0] at this
  exact this

theorem two_call1 {k : κ} {ks : List κ} (h : Exec prog c0 evs (two s o t0 ⟨k :: ks, none⟩)) :
    Exec prog c0 (evs ++ [.call 1 k]) (two s o t0 ⟨ks, some (prog k)⟩) := by
  have := Exec.snoc h (.call _ 1 k ks rfl)
  rw [two_update1] at this
  exact this

theorem two_act0 {ks : List κ} {x : Access ob} {u : σ → σ} {n : σ → Prog ob σ α}
    (h : Exec prog c0 evs (two s o ⟨ks, some (.act x u n)⟩ t1)) :
    Exec prog c0 (evs ++ [.tau 0]) (two (u s) o ⟨ks, some (n s)⟩ t1) := by
  have := Exec.snoc h (.act _ 0 ks x u n rfl)
  rw [two_update0] at this
  exact this

theorem two_act1 {ks : List κ} {x : Access ob} {u : σ → σ} {n : σ → Prog ob σ α}
    (h : Exec prog c0 evs (two s o t0 ⟨ks, some (.act x u n)⟩)) :
    Exec prog c0 (evs ++ [.tau 1]) (two (u s) o t0 ⟨ks, some (n s)⟩) := by
  have := Exec.snoc h (.act _ 1 ks x u n rfl)
  rw [two_update1] at this
  exact this

theorem two_lock1 {ks : List κ} {p : Prog ob σ α} (h : Exec prog c0 evs (two s none t0 ⟨ks, some (.lock p)⟩)) :
    Exec prog c0 (evs ++ [.tau 1]) (two s (some 1) t0 ⟨ks, some p⟩) := by
  have := Exec.snoc h (.lock _ 1 ks p rfl rfl)
  rw [two_update1] at this
  exact this

theorem two_done0 {ks : List κ} {a : α} (h : Exec prog c0 evs (two s o ⟨ks, some (.ret a)⟩ t1)) :
    Exec prog c0 (evs ++ [.done 0 a]) (two s o ⟨ks, none⟩ t1) := by
  have := Exec.snoc h (.done _ 0 ks a rfl)
  rw [two_update0] at this
  exact this

theorem two_done1 {ks : List κ} {a : α} (h : Exec prog c0 evs (two s o t0 ⟨ks, some (.ret a)⟩)) :
    Exec prog c0 (evs ++ [.done 1 a]) (two s o t0 ⟨ks, none⟩) := by
  have := Exec.snoc h (.done _ 1 ks a rfl)
  rw [two_update1] at this
  exact this

theorem two_run0 {ks : List κ} {p : Prog ob σ β} (hp : p.Plain) {k : β → Prog ob σ α}
    (h : Exec prog c0 evs (two s o ⟨ks, some (p.bind k)⟩ t1)) :
    ∃ es, (∀ e ∈ es, e = .tau 0) ∧ Exec prog c0 (evs ++ es) (two (p.alone s).2 o ⟨ks, some (k (p.alone s).1)⟩ t1) := by
  obtain ⟨es, h1, h2⟩ := run (prog := prog) 0 ks k p hp _ (show (two s o ⟨ks, some (p.bind k)⟩ t1).th 0 = _ from rfl)
  rw [two_update0] at h1
  exact ⟨es, h2, h.trans h1⟩

theorem two_run1 {ks : List κ} {p : Prog ob σ β} (hp : p.Plain) {k : β → Prog ob σ α}
    (h : Exec prog c0 evs (two s o t0 ⟨ks, some (p.bind k)⟩)) :
    ∃ es, (∀ e ∈ es, e = .tau 1) ∧ Exec prog c0 (evs ++ es) (two (p.alone s).2 o t0 ⟨ks, some (k (p.alone s).1)⟩) := by
  obtain ⟨es, h1, h2⟩ := run (prog := prog) 1 ks k p hp _ (show (two s o t0 ⟨ks, some (p.bind k)⟩).th 1 = _ from rfl)
  rw [two_update1] at h1
  exact ⟨es, h2, h.trans h1⟩

theorem two_race {ks ls : List κ} {x y : Access ob} {u v : σ → σ} {n m : σ → Prog ob σ α} (h : x.obj = y.obj)
    (hw : x.write = true ∨ y.write = true) : Race (two s o ⟨ks, some (.act x u n)⟩ ⟨ls, some (.act y v m)⟩) :=
  ⟨0, 1, ks, ls, x, y, u, v, n, m, by decide, rfl, rfl, h, hw⟩

end two
end Conc

namespace KeyMgr
open Conc
variable {G1 G2 GT : Type}

/-! ### The programs are the commands -/

/-- Run without other threads, the program of each command returns what the command returns and leaves the key manager
as the command does; a search for nothing leaves it as it was. -/
theorem C114_programs (env : KmEnv G1 G2 GT) (km : KeyMgr G1 G2 GT) :
    (∀ u id blob x c r, (prog env (.store u id blob x c r)).alone km =
      (.stored (store env km u id blob x c r).1, (store env km u id blob x c r).2)) ∧
    (∀ u pre blob x c r, (prog env (.storePrefix u pre blob x c r)).alone km =
      (.id (storePrefix env km u pre blob x c r).1, (storePrefix env km u pre blob x c r).2)) ∧
    (∀ u id, (prog env (.get u id)).alone km = (.key (getKey km u id), km)) ∧
    (∀ q f id km' f', search env km q f = .ok (id, km', f') →
      (prog env (.search q f)).alone km = (.found (.ok (id, f')), km')) ∧
    (∀ q f, ((prog env (.search q f)).alone km).1 = .found (search env km q f >>= fun r => .ok (r.1, r.2.2))) ∧
    (∀ q, (prog env (.search q .null)).alone km = (.found (.throw .invalidInput), km)) ∧
    (∀ q, (prog env (.delete q)).alone km = (.ids (delete km q).1, (delete km q).2)) ∧
    (∀ p u s, (prog env (.passphrase p u s)).alone km = (.none, setPassphrase km p u s)) ∧
    (prog env .users).alone km = (.users km.active, km) ∧
    (∀ u, (prog env (.count u)).alone km = (.count (userKeyCount km u).1, (userKeyCount km u).2)) := by
  refine ⟨?_, ?_, ?_, ?_, ?_, ?_, ?_, ?_, ?_, ?_⟩
  · intro u id blob x c r
    simp only [prog, Prog.alone_bind, storeP_alone, alone_ret]
  · intro u id blob x c r
    simp only [prog, Prog.alone_guarded, Prog.alone_bind, storePrefixP_alone, alone_ret]
  · intro u id
    simp only [prog, Prog.alone_guarded, Prog.alone_bind, getKeyP_alone, alone_ret]
  · intro q f id km' f' h
    obtain ⟨h1, h2⟩ := searchP_alone env q f km
    simp only [prog, Prog.alone_guarded, Prog.alone_bind, alone_ret, h1, h2 id km' f' h]
    rw [h]
    rfl
  · intro q f
    obtain ⟨h1, -⟩ := searchP_alone env q f km
    simp only [prog, Prog.alone_guarded, Prog.alone_bind, alone_ret, h1]
  · intro q
    simp only [prog, Prog.alone_guarded, Prog.alone_bind, searchP_null, alone_ret]
  · intro q
    simp only [prog, Prog.alone_guarded, Prog.alone_bind, deleteP_alone, alone_ret]
  · intro p u s
    rfl
  · rfl
  · intro u
    rfl

/-! ### Commands under the mutex -/

/-- Any number of threads that only use the commands that take the mutex, in any interleaving: what the threads observe
is explained by some order of the commands that respects their calls and returns; whenever the mutex is free the key
manager is in the state that this order leaves; two threads never access the same member at once. -/
theorem C114_linearizable {env : KmEnv G1 G2 GT} {km : KeyMgr G1 G2 GT} {todo : Nat → List KmCall}
    (hl : ∀ i, ∀ k ∈ todo i, k.Locked) {evs : List (Event KmCall KmRes)} {c : Cfg KmObj (KeyMgr G1 G2 GT) KmCall KmRes}
    (h : Exec (prog env) (start km todo) evs c) :
    (∃ L, Linearizable (fun k => (prog env k).alone) km evs L ∧
      (c.owner = none → Legal (fun k => (prog env k).alone) km L c.st)) ∧ ¬ Race c := by
  obtain ⟨L, sq, hi⟩ := exec_inv (fun i k hk => locked_guarded env (hl i k hk)) h
  exact ⟨⟨L, hi.linearizable, fun ho => by rw [hi.free ho]; exact hi.legal⟩, hi.no_race⟩

/-- The commands that take the mutex never block each other for good: some thread can go on until all have made all
their calls, and from every state any thread can be brought to make all its calls. -/
theorem C114_progress {env : KmEnv G1 G2 GT} {km : KeyMgr G1 G2 GT} {todo : Nat → List KmCall}
    (hl : ∀ i, ∀ k ∈ todo i, k.Locked) {evs : List (Event KmCall KmRes)} {c : Cfg KmObj (KeyMgr G1 G2 GT) KmCall KmRes}
    (h : Exec (prog env) (start km todo) evs c) :
    (Finished c ∨ ∃ e c', Step (prog env) c e c') ∧
    ∀ i, ∃ evs' c', Exec (prog env) c evs' c' ∧ c'.th i = ⟨[], none⟩ :=
  have hg := fun i k hk => locked_guarded env (hl i k hk)
  ⟨no_deadlock hg h, finish hg h⟩

theorem legal_reach {env : KmEnv G1 G2 GT} {km s : KeyMgr G1 G2 GT} {log : Log} {L : List (Nat × KmCall × KmRes)}
    (h : Legal (fun k => (prog env k).alone) km L s) (hr : Reach env log km)
    (hk : ∀ x ∈ L, x.2.1.Locked ∧ ¬ x.2.2.Fatal ∧ ∀ q f, x.2.1 = .search q f → f.Ready ∨ f = .null) :
    ∃ log', Reach env log' s ∧ ∀ id u blob, (id, some (u, blob)) ∈ log' ↔ (id, some (u, blob)) ∈ log ∨
      ∃ n pre x c r, (n, .storePrefix u pre blob x c r, .id (.ok id)) ∈ L ∧ id ≠ [] := by
  induction h with
  | nil => exact ⟨log, hr, by simp⟩
  | snoc i k a hL hs ih =>
    rename_i s1 s2 L
    obtain ⟨log', hr', hm⟩ := ih fun x hx => hk x (List.mem_append_left _ hx)
    obtain ⟨h1, h2, h3⟩ := hk (i, k, a) (by simp)
    simp only at h1 h2 h3 hs
    obtain ⟨-, p2, p3, p4, -, p6, p7, -⟩ := C114_programs env s1
    have skip : Reach env log' s2 → (∀ u pre blob x c r, k ≠ .storePrefix u pre blob x c r) →
        ∃ log', Reach env log' s2 ∧ ∀ id u blob, (id, some (u, blob)) ∈ log' ↔ (id, some (u, blob)) ∈ log ∨
          ∃ n pre x c r, (n, .storePrefix u pre blob x c r, .id (.ok id)) ∈ L ++ [(i, k, a)] ∧ id ≠ [] := by
      intro hr2 hne
      refine ⟨log', hr2, fun id u blob => ?_⟩
      rw [hm]
      constructor
      · rintro (h | ⟨n, pre, x, c, r, h, h'⟩)
        · exact .inl h
        · exact .inr ⟨n, pre, x, c, r, List.mem_append_left _ h, h'⟩
      · rintro (h | ⟨n, pre, x, c, r, h, h'⟩)
        · exact .inl h
        · rcases List.mem_append.mp h with h | h
          · exact .inr ⟨n, pre, x, c, r, h, h'⟩
          · simp only [List.mem_singleton, Prod.mk.injEq] at h
            exact absurd h.2.1.symm (hne _ _ _ _ _ _)
    cases k with
    | store => exact h1.elim
    | passphrase => exact h1.elim
    | users => exact h1.elim
    | count => exact h1.elim
    | get u id =>
      rw [p3] at hs
      simp only [Prod.mk.injEq] at hs
      exact skip (hs.2 ▸ hr') (by simp)
    | delete q =>
      rw [p7] at hs
      simp only [Prod.mk.injEq] at hs
      exact skip (hs.2 ▸ hr'.deleted q) (by simp)
    | search q f =>
      rcases h3 q f rfl with hf | rfl
      · obtain ⟨id, km', f', e, -⟩ := search_spec (reach_inv hr') q hf
        rw [p4 q f id km' f' e] at hs
        simp only [Prod.mk.injEq] at hs
        exact skip (hs.2 ▸ hr'.searched q hf e) (by simp)
      · rw [p6] at hs
        simp only [Prod.mk.injEq] at hs
        exact skip (hs.2 ▸ hr') (by simp)
    | storePrefix u pre blob x c r =>
      rw [p2] at hs
      simp only [Prod.mk.injEq] at hs
      obtain ⟨rfl, rfl⟩ := hs
      rcases he : storePrefix env s1 u pre blob x c r with ⟨res, s2⟩
      simp only [he] at h2 ⊢
      have old : ∀ {id u' blob'}, (id, some (u', blob')) ∈ log' → (id, some (u', blob')) ∈ log ∨ ∃ n pre' x' c' r',
          (n, KmCall.storePrefix u' pre' blob' x' c' r', KmRes.id (.ok id)) ∈ L ++ [(i, .storePrefix u pre blob x c r, .id res)] ∧ id ≠ [] := by
        intro id u' blob' h
        rcases (hm _ _ _).mp h with h | ⟨n, pre', x', c', r', h, h'⟩
        · exact .inl h
        · exact .inr ⟨n, pre', x', c', r', List.mem_append_left _ h, h'⟩
      have bad : (res = .ok [] ∨ ∃ e, res = .throw e) → ∃ log', Reach env log' s2 ∧ ∀ id u' blob', (id, some (u', blob')) ∈ log' ↔
          (id, some (u', blob')) ∈ log ∨ ∃ n pre' x' c' r',
          (n, KmCall.storePrefix u' pre' blob' x' c' r', KmRes.id (.ok id)) ∈ L ++ [(i, .storePrefix u pre blob x c r, .id res)] ∧ id ≠ [] := by
        intro hres
        refine ⟨_, hr'.notStoredPrefix u pre blob x c r he hres, fun id u' blob' => ?_⟩
        simp only [List.mem_cons, Prod.mk.injEq, reduceCtorEq, and_false, false_or]
        refine ⟨old, ?_⟩
        rintro (h | ⟨n, pre', x', c', r', h, h'⟩)
        · exact (hm _ _ _).mpr (.inl h)
        · rcases List.mem_append.mp h with h | h
          · exact (hm _ _ _).mpr (.inr ⟨n, pre', x', c', r', h, h'⟩)
          · simp only [List.mem_singleton, Prod.mk.injEq, KmRes.id.injEq] at h
            obtain ⟨-, -, h⟩ := h
            rcases hres with hres | ⟨e, hres⟩
            · rw [hres] at h
              simp only [Res.ok.injEq] at h
              exact absurd h h'
            · rw [hres] at h
              simp at h
      cases res with
      | ok id =>
        by_cases hid : id = []
        · exact bad (.inl (by rw [hid]))
        · refine ⟨_, hr'.storedPrefix u pre blob x c r he hid, fun id' u' blob' => ?_⟩
          constructor
          · intro h
            rcases List.mem_cons.mp h with h | h
            · simp only [Prod.mk.injEq, Option.some.injEq] at h
              obtain ⟨rfl, rfl, rfl⟩ := h
              exact .inr ⟨i, pre, x, c, r, by simp, hid⟩
            · exact old h
          · rintro (h | ⟨n, pre', x', c', r', h, h'⟩)
            · exact List.mem_cons_of_mem _ ((hm _ _ _).mpr (.inl h))
            · rcases List.mem_append.mp h with h | h
              · exact List.mem_cons_of_mem _ ((hm _ _ _).mpr (.inr ⟨n, pre', x', c', r', h, h'⟩))
              · simp only [List.mem_singleton, Prod.mk.injEq, KmRes.id.injEq, Res.ok.injEq, KmCall.storePrefix.injEq] at h
                obtain ⟨-, ⟨rfl, -, rfl, -⟩, rfl⟩ := h
                exact List.mem_cons_self
      | throw e => exact bad (.inr ⟨e, rfl⟩)
      | ub => exact absurd (.inl rfl) h2
      | abort => exact absurd (.inr rfl) h2

/-- When no command is under way, the key manager that threads used through the commands with the mutex is in a state
that one thread could have brought it to (so what C62 to C79 say about such states holds), and the keys stored are
those that the calls of the threads stored. -/
theorem C114_history {env : KmEnv G1 G2 GT} {km : KeyMgr G1 G2 GT} {log : Log} (hr : Reach env log km)
    {todo : Nat → List KmCall} (hl : ∀ i, ∀ k ∈ todo i, k.Locked)
    (hs : ∀ i q f, .search q f ∈ todo i → f.Ready ∨ f = .null)
    {evs : List (Event KmCall KmRes)} {c : Cfg KmObj (KeyMgr G1 G2 GT) KmCall KmRes}
    (h : Exec (prog env) (start km todo) evs c) (hq : ∀ i, (c.th i).cur = none)
    (hf : ∀ i, ∀ a ∈ resultsOf i evs, ¬ a.Fatal) :
    ∃ L log', Linearizable (fun k => (prog env k).alone) km evs L ∧ Reach env log' c.st ∧
      ∀ id u blob, (id, some (u, blob)) ∈ log' ↔ (id, some (u, blob)) ∈ log ∨
        ∃ n pre x c r, (n, .storePrefix u pre blob x c r, .id (.ok id)) ∈ L ∧ id ≠ [] := by
  obtain ⟨L, sq, hi⟩ := exec_inv (fun i k hk => locked_guarded env (hl i k hk)) h
  have ho : c.owner = none := by
    cases hc : c.owner with
    | none => rfl
    | some j =>
      cases hi.th j with
      | idle _ h1 => exact absurd hc h1
      | waiting _ _ _ _ _ h1 => exact absurd hc h1
      | leaving _ _ h1 => exact absurd hc h1
      | inside b a hb h1 => rw [hq j] at h1; simp at h1
  have hmem : ∀ x ∈ L, x.2.1 ∈ todo x.1 ∧ x.2.2 ∈ resultsOf x.1 evs := by
    rintro ⟨i, k, a⟩ hx
    have h1 := mem_ofThread hx
    cases hi.th i with
    | idle _ _ h3 h4 =>
      refine ⟨?_, ?_⟩
      · rw [← calls_todo h i, ← h3]
        exact List.mem_append_left _ (List.mem_map.mpr ⟨_, h1, rfl⟩)
      · rw [← h4]
        exact List.mem_map.mpr ⟨_, h1, rfl⟩
    | waiting _ _ _ _ h1 => rw [hq i] at h1; simp at h1
    | leaving _ h1 => rw [hq i] at h1; simp at h1
    | inside _ _ _ h1 => rw [hq i] at h1; simp at h1
  obtain ⟨log', h1, h2⟩ := legal_reach hi.legal hr fun x hx => by
    obtain ⟨m1, m2⟩ := hmem x hx
    exact ⟨hl _ _ m1, hf _ _ m2, fun q f e => hs x.1 q f (e ▸ m1)⟩
  exact ⟨L, log', hi.linearizable, by rw [hi.free ho]; exact h1, h2⟩

/-! ### Commands without the mutex -/

/-- Two threads, one call each. -/
def pair (k0 k1 : KmCall) : Nat → List KmCall
  | 0 => [k0]
  | 1 => [k1]
  | _ => []

theorem pair_start {km : KeyMgr G1 G2 GT} (env : KmEnv G1 G2 GT) (k0 k1 : KmCall) : Exec (prog env) (start km (pair k0 k1)) []
    (two km none ⟨[k0], none⟩ ⟨[k1], none⟩) := by
  rw [← two_start km k0 k1 (pair k0 k1) rfl rfl fun _ => rfl]
  exact .nil

/-- The first accesses of a store. -/
theorem store_prog (env : KmEnv G1 G2 GT) (v j blob' : Bytes) (x' : Nat) (c' : Bool) (r' : Bytes) (hv : v ≠ []) :
    ∃ n : Bool → KmProg G1 G2 GT KmRes,
      prog env (.store v j blob' x' c' r') = .act ⟨.keys, false⟩ id (fun s => n (SMap.find j s.keys).isSome) ∧
      ∃ n', n true = .act ⟨.keys, true⟩ (fun s => { s with keys := SMap.erase j s.keys }) n' := by
  simp only [prog, storeP]
  rw [if_neg (fun h => hv h.1)]
  refine ⟨fun b => ((if b then Prog.change .keys (fun s => { s with keys := SMap.erase j s.keys }) fun _ => ()
    else .ret ()).bind _).bind _, rfl, _, rfl⟩

/-- `storeWithKeyIDCommand` does not take the mutex: replacing a key races with another store and with a command that
takes the mutex. -/
theorem C114_store_races_violated (env : KmEnv G1 G2 GT) {km : KeyMgr G1 G2 GT} {u i : Bytes} (hu : u ≠ []) {m : Meta}
    (hi : SMap.find i km.keys = some m) (blob : Bytes) (x : Nat) (c : Bool) (r : Bytes) :
    (∀ v j blob' x' c' r', v ≠ [] → ∃ evs c1,
      Exec (prog env) (start km (pair (.store u i blob x c r) (.store v j blob' x' c' r'))) evs c1 ∧ Race c1) ∧
    (∀ v j, ∃ evs c1, Exec (prog env) (start km (pair (.store u i blob x c r) (.get v j))) evs c1 ∧ Race c1) := by
  obtain ⟨n, e1, n', e2⟩ := store_prog env u i blob x c r hu
  have hk : (SMap.find i km.keys).isSome = true := by rw [hi]; rfl
  have first : ∀ k1, ∃ evs, Exec (prog env) (start km (pair (.store u i blob x c r) k1)) evs
      (two km none ⟨[], some (.act ⟨.keys, true⟩ (fun s => { s with keys := SMap.erase i s.keys }) n')⟩ ⟨[k1], none⟩) := by
    intro k1
    have h1 := two_call0 (pair_start (km := km) env (.store u i blob x c r) k1)
    rw [e1] at h1
    have h2 := two_act0 h1
    rw [hk, e2] at h2
    exact ⟨_, h2⟩
  constructor
  · intro v j blob' x' c' r' hv
    obtain ⟨n2, e3, -⟩ := store_prog env v j blob' x' c' r' hv
    obtain ⟨evs, h1⟩ := first (.store v j blob' x' c' r')
    have h2 := two_call1 h1
    rw [e3] at h2
    exact ⟨_, _, h2, two_race rfl (.inl rfl)⟩
  · intro v j
    obtain ⟨evs, h1⟩ := first (.get v j)
    exact ⟨_, _, two_lock1 (two_call1 h1), two_race rfl (.inl rfl)⟩

/-- A deletion of the keys of a user, up to the point where it drops the user. -/
theorem delete_split (env : KmEnv G1 G2 GT) {q : Query} (hn : q.now = 0) (hq : q.userId ≠ []) :
    ∃ (k : List Bytes → KmProg G1 G2 GT KmRes) (n' : List Bytes → KeyMgr G1 G2 GT → KmProg G1 G2 GT KmRes),
      prog env (.delete q) = .lock ((forKeysP (idsStep q.userId q.now) []).bind k) ∧
      ∀ ids, k ids = .act ⟨.active, true⟩ (fun s => { s with active := SMap.erase q.userId s.active }) (n' ids) := by
  have h0 : ¬ 0 < q.now := by omega
  simp only [prog, deleteP, Prog.guarded, Prog.bind_assoc, h0, hq, if_false, ne_eq, not_false_eq_true, if_true]
  exact ⟨_, _, rfl, fun ids => rfl⟩

/-- `setPassphrase`, `getActiveUsers` and `getUserKeyCount` do not take the mutex either: they race with commands that
do, whatever the key manager holds. -/
theorem C114_accessors_race_violated (env : KmEnv G1 G2 GT) (km : KeyMgr G1 G2 GT) (p u s : Bytes) :
    (∀ q : Query, q.now = 0 → q.userId ≠ [] →
      ∃ evs c1, Exec (prog env) (start km (pair (.passphrase p u s) (.delete q))) evs c1 ∧ Race c1) ∧
    (∃ evs c1, Exec (prog env) (start km (pair (.passphrase p u s) .users)) evs c1 ∧ Race c1) ∧
    (∀ v pre blob x c r,
      ∃ evs c1, Exec (prog env) (start km (pair (.count u) (.storePrefix v pre blob x c r))) evs c1 ∧ Race c1) := by
  refine ⟨?_, ?_, ?_⟩
  · intro q hn hq
    have h1 := two_act0 (two_call0 (prog := prog env) (pair_start (km := km) env (.passphrase p u s) (.delete q)))
    obtain ⟨k, n', e1, e2⟩ := delete_split env hn hq
    have h2 := two_call1 h1
    rw [e1] at h2
    obtain ⟨es, -, h3⟩ := two_run1 (forKeysP_plain (idsStep q.userId q.now) []) (two_lock1 h2)
    rw [e2] at h3
    exact ⟨_, _, h3, two_race rfl (.inl rfl)⟩
  · exact ⟨_, _, two_call1 (two_act0 (two_call0 (pair_start (km := km) env (.passphrase p u s) .users))), two_race rfl (.inl rfl)⟩
  · intro v pre blob x c r
    exact ⟨_, _, two_lock1 (two_call1 (two_call0 (pair_start (km := km) env (.count u) (.storePrefix v pre blob x c r)))),
      two_race rfl (.inl rfl)⟩

/-- A store up to the point where it has looked for an equal key. -/
def storeLook (u i new : Bytes) (f : FInput) : KmProg G1 G2 GT (Res Bool) :=
  (Prog.check .keys fun s => (SMap.find i s.keys).isSome).bind fun present =>
  (if present then Prog.change .keys (fun s => { s with keys := SMap.erase i s.keys }) fun _ => () else .ret ()).bind fun _ =>
  forKeysP (dupStep u new f) (.ok false)

theorem store_split {env : KmEnv G1 G2 GT} {u blob : Bytes} (hu : u ≠ []) {f : FInput} {new r : Bytes} {sid : UInt8}
    (hp : parseBlob env blob r = .ok (some (sid, f))) (hc : f.compact = .ok new) (i : Bytes) (x : Nat) (c : Bool) :
    ∃ k : Res Bool → KmProg G1 G2 GT KmRes, prog env (.store u i blob x c r) = (storeLook u i new f).bind k ∧
      k (.ok false) = .act ⟨.keys, true⟩ (fun s => { s with keys := SMap.insert i ⟨u, blob, x, sid, f, c⟩ s.keys })
        fun _ => .ret (.stored (.ok true)) := by
  simp only [prog, storeP, hp, hc]
  rw [if_neg (fun h => hu h.1)]
  refine ⟨fun r => Prog.bind (match r with
    | .ok true => .ret (.ok false)
    | .ok false => Prog.change .keys
        (fun s => { s with keys := SMap.insert i ⟨u, blob, x, sid, f, c⟩ s.keys }) fun _ => .ok true
    | .throw e => .ret (.throw e)
    | .ub => .ret .ub
    | .abort => .ret .abort) fun r => .ret (.stored r), ?_, rfl⟩
  simp only [storeLook, Prog.bind_assoc]
  rfl

theorem storeLook_plain (u i new : Bytes) (f : FInput) : (storeLook u i new f : KmProg G1 G2 GT _).Plain := by
  refine .bind (plain_check _ _) fun e => .bind ?_ fun _ => forKeysP_plain _ _
  split
  · exact plain_change _ _ _
  · trivial

theorem storeLook_alone {u i new : Bytes} {f : FInput} {km : KeyMgr G1 G2 GT} (hi : SMap.find i km.keys = none) :
    (storeLook u i new f).alone km = (findDup u new f km.keys, km) := by
  unfold storeLook
  rw [Prog.alone_bind, alone_check, hi]
  simp only [Option.isSome_none, Bool.false_eq_true, if_false, Prog.alone_bind, alone_ret]
  rw [forKeysP_alone, scan_dup]

/-- Even if every single access to the map were atomic: two threads that store the same key under two ids at the same
time both succeed, and the user has two keys with one input. No order of the two commands explains this, since the
second one would be refused (`C79_accepted_iff`). -/
theorem C114_stores_not_linearizable_violated {env : KmEnv G1 G2 GT} {log : Log} {km : KeyMgr G1 G2 GT} (h : Reach env log km)
    {u blob : Bytes} (hu : u ≠ []) {f : FInput} (hf : Holds env blob f) (hn : f ≠ .null) {i j : Bytes} (hij : i ≠ j)
    (hi : log.latest i = none) (hj : log.latest j = none)
    (hnew : ∀ k b g, log.latest k = some (u, b) → Holds env b g → FInput.sameType f g = true → g.compact ≠ f.compact)
    (x y : Nat) (c d : Bool) (r s : Bytes) :
    ∃ evs c1, Exec (prog env) (start km (pair (.store u i blob x c r) (.store u j blob y d s))) evs c1 ∧ Finished c1 ∧
      resultsOf 0 evs = [.stored (.ok true)] ∧ resultsOf 1 evs = [.stored (.ok true)] ∧
      (∃ m n, SMap.find i c1.st.keys = some m ∧ SMap.find j c1.st.keys = some n ∧ m.userId = u ∧ n.userId = u ∧
        m.input = f ∧ n.input = f) ∧
      ¬ ∃ L, Linearizable (fun k => (prog env k).alone) km evs L := by
  have hinv := reach_inv h
  have absent : ∀ {k}, log.latest k = none → SMap.find k km.keys = none := by
    intro k hk
    have := hinv.latest k
    rw [hk] at this
    simpa using this
  obtain ⟨r0, sid, hp⟩ := hf
  have hp' : ∀ r, parseBlob env blob r = .ok (some (sid, f)) := by
    intro r
    simp only [parseBlob, Key.parseHeader, construct_rnd blob r0 r] at hp ⊢
    exact hp
  have : ∃ new, f.compact = .ok new := by
    cases f with
    | null => exact absurd rfl hn
    | attrs l => exact ⟨_, rfl⟩
    | policy p => exact ⟨_, rfl⟩
  obtain ⟨new, hc⟩ := this
  obtain ⟨k0, e0, e0'⟩ := store_split hu (hp' r) hc i x c
  obtain ⟨k1, e1, e1'⟩ := store_split hu (hp' s) hc j y d
  -- alone, each is accepted
  have acc : ∀ {k x c r}, log.latest k = none → (store env km u k blob x c r).1 = .ok true := by
    intro k x c r hk
    obtain ⟨b, b1, b2⟩ := C79_accepted_iff h hu ⟨r0, sid, hp⟩ hn k x c r
    cases b with
    | true => exact b1
    | false =>
      obtain ⟨l, b', g, -, g1, g2, g3, g4⟩ := b2.mp rfl
      exact absurd g4 (hnew l b' g g1 g2 g3)
  have hdup : findDup u new f km.keys = .ok false := by
    have := acc (x := x) (c := c) (r := r) hi
    unfold store at this
    rw [if_neg (fun h => hu h.1)] at this
    simp only [hp', hc, Res.ok_bind, SMap.erase_absent (absent hi)] at this
    revert this
    cases findDup u new f km.keys with
    | ok b => cases b <;> simp
    | _ => simp
  -- one after the other, the second is refused
  have second : ∀ {k l x c r y d s km1}, k ≠ l → log.latest k = none → (store env km u k blob x c r) = (.ok true, km1) →
      (store env km1 u l blob y d s).1 = .ok false := by
    intro k l x c r y d s km1 hkl hk h1
    obtain ⟨b, b1, b2⟩ := C79_accepted_iff (h.stored u k blob x c r h1) hu ⟨r0, sid, hp⟩ hn l y d s
    have : b = false := b2.mpr ⟨k, blob, f, hkl, by simp [Log.latest], ⟨r0, sid, hp⟩, by cases f <;> rfl, rfl⟩
    rw [b1, this]
  have h1 := two_call0 (prog := prog env) (pair_start (km := km) env (.store u i blob x c r) (.store u j blob y d s))
  rw [e0] at h1
  obtain ⟨es0, t0, h2⟩ := two_run0 (storeLook_plain _ _ _ _) h1
  rw [storeLook_alone (absent hi), hdup, e0'] at h2
  have h3 := two_call1 h2
  rw [e1] at h3
  obtain ⟨es1, t1, h4⟩ := two_run1 (storeLook_plain _ _ _ _) h3
  rw [storeLook_alone (absent hj), hdup, e1'] at h4
  have h4a := two_act0 h4
  have h4b := two_done0 h4a
  have h4c := two_act1 h4b
  have h5 := two_done1 h4c
  refine ⟨_, _, h5, ?_, ?_, ?_, ⟨⟨u, blob, x, sid, f, c⟩, ⟨u, blob, y, sid, f, d⟩, ?_, ?_, rfl, rfl, rfl, rfl⟩, ?_⟩
  · intro n
    match n with
    | 0 => rfl
    | 1 => rfl
    | n + 2 => rfl
  · simp [resultsOf_append, resultsOf_tau t0, resultsOf_tau t1, resultsOf]
  · simp [resultsOf_append, resultsOf_tau t0, resultsOf_tau t1, resultsOf]
  · simp [two, SMap.find_insert, hij]
  · simp [two, SMap.find_insert]
  · rintro ⟨L, ⟨sq, hL⟩, hth, -⟩
    simp only [resultsOf_append, resultsOf_tau t0, resultsOf_tau t1, callsOf_append, callsOf_tau t0, callsOf_tau t1] at hth
    have g0 : ofThread 0 L = [(.store u i blob x c r, .stored (.ok true))] := by
      obtain ⟨g1, g2, -⟩ := hth 0
      simp only [callsOf, resultsOf, List.nil_append, List.append_nil, if_true, reduceCtorEq, if_false, one_ne_zero] at g1 g2
      exact one_entry g1 g2
    have g1 : ofThread 1 L = [(.store u j blob y d s, .stored (.ok true))] := by
      obtain ⟨g1, g2, -⟩ := hth 1
      simp only [callsOf, resultsOf, List.nil_append, List.append_nil, if_true, reduceCtorEq, if_false, zero_ne_one] at g1 g2
      exact one_entry g1 g2
    have g2 : ∀ z ∈ L, z.1 = 0 ∨ z.1 = 1 := by
      rintro ⟨n, k, a⟩ hz
      match n with
      | 0 => exact .inl rfl
      | 1 => exact .inr rfl
      | n + 2 =>
        obtain ⟨g3, -⟩ := hth (n + 2)
        have hne : (0 : Nat) ≠ n + 2 := by omega
        have hne' : (1 : Nat) ≠ n + 2 := by omega
        simp only [callsOf, hne, hne', if_false, List.append_nil, List.prefix_nil, List.map_eq_nil_iff] at g3
        have := mem_ofThread hz
        rw [g3] at this
        simp at this
    have hlen := length_two g2
    rw [g0, g1] at hlen
    obtain ⟨a, b, rfl⟩ := List.length_eq_two.mp hlen
    obtain ⟨km1, q1, q2⟩ := legal_two hL
    obtain ⟨p1, -⟩ := C114_programs env km
    obtain ⟨p2, -⟩ := C114_programs env km1
    obtain ⟨a1, a2, a3⟩ := a
    obtain ⟨b1, b2, b3⟩ := b
    simp only at q1 q2
    rcases g2 (a1, a2, a3) (by simp) with ha | ha <;> rcases g2 (b1, b2, b3) (by simp) with hb | hb <;>
      simp only at ha hb <;> subst ha hb <;> simp [ofThread] at g0 g1
    · obtain ⟨rfl, rfl⟩ := g0
      obtain ⟨rfl, rfl⟩ := g1
      rw [p1] at q1
      rw [p2] at q2
      simp only [Prod.mk.injEq, KmRes.stored.injEq] at q1 q2
      have := second (y := y) (d := d) (s := s) hij hi (Prod.ext q1.1 q1.2)
      rw [q2.1] at this
      simp at this
    · obtain ⟨rfl, rfl⟩ := g0
      obtain ⟨rfl, rfl⟩ := g1
      rw [p1] at q1
      rw [p2] at q2
      simp only [Prod.mk.injEq, KmRes.stored.injEq] at q1 q2
      have := second (y := x) (d := c) (s := r) (Ne.symm hij) hj (Prod.ext q1.1 q1.2)
      rw [q2.1] at this
      simp at this

/-! ### Examples -/

namespace Ex

/-- Alice stores a key while Bob reads one and a third thread deletes; the calls are under the mutex. -/
def jobs : Nat → List KmCall
  | 0 => [.storePrefix b!"alice" b!"p" (cpKey b!"|a|b") 100 false [], .search ⟨false, 0, b!"alice"⟩ pol]
  | 1 => [.get b!"bob" b!"k2"]
  | 2 => [.delete ⟨false, 50, b!"alice"⟩]
  | _ => []

theorem jobs_locked : ∀ i, ∀ k ∈ jobs i, k.Locked
  | 0, k, h => by
    simp only [jobs, List.mem_cons, List.not_mem_nil, or_false] at h
    rcases h with rfl | rfl <;> exact trivial
  | 1, k, h => by
    simp only [jobs, List.mem_cons, List.not_mem_nil, or_false] at h
    subst h; exact trivial
  | 2, k, h => by
    simp only [jobs, List.mem_cons, List.not_mem_nil, or_false] at h
    subst h; exact trivial
  | _ + 3, _, h => by simp [jobs] at h

/-- The hypotheses of `C114_linearizable`, `C114_progress` and `C114_history` are met by three threads with four calls;
some execution makes all calls of thread 0. -/
example : (∀ i, ∀ k ∈ jobs i, k.Locked) ∧ (∀ i q f, KmCall.search q f ∈ jobs i → f.Ready ∨ f = .null) ∧
    ∃ evs c, Exec (prog env) (start km3 jobs) evs c ∧ c.th 0 = ⟨[], none⟩ := by
  refine ⟨jobs_locked, ?_, ?_⟩
  · intro i q f h
    match i, h with
    | 0, h =>
      simp only [jobs, List.mem_cons, List.not_mem_nil, or_false, reduceCtorEq, false_or, KmCall.search.injEq] at h
      rw [h.2]
      exact .inl pol_ready
    | 1, h => simp [jobs] at h
    | 2, h => simp [jobs] at h
    | _ + 3, h => simp [jobs] at h
  · obtain ⟨-, h⟩ := C114_progress (env := env) (km := km3) jobs_locked Exec.nil
    obtain ⟨evs, c, h1, h2⟩ := h 0
    exact ⟨evs, c, h1, h2⟩

/-- The hypotheses of `C114_store_races_violated`: Alice replaces the key `k1` of `km3`. -/
example : ∃ m, SMap.find b!"k1" km3.keys = some m ∧ b!"alice" ≠ [] := by
  obtain ⟨m, h, -⟩ := (reach_inv reach3).get (id := b!"k1") (u := b!"alice") (blob := cpKey b!"|a|c") rfl
  exact ⟨m, h, by decide⟩

theorem held_ne : held (cpKey b!"|a|c") ≠ .null := by
  intro h
  have : (match held (cpKey b!"|a|c") with | .attrs _ => true | _ => false) = true := by unfold held; decide +kernel
  rw [h] at this
  simp at this

/-- The hypotheses of `C114_stores_not_linearizable_violated`: an empty key manager, a key for `|a|c`, two ids. -/
example : Reach env [] km0 ∧ Holds env (cpKey b!"|a|c") (held (cpKey b!"|a|c")) ∧ held (cpKey b!"|a|c") ≠ .null ∧
    b!"i" ≠ b!"j" ∧ Log.latest b!"i" [] = none ∧
    ∀ k b g, Log.latest k [] = some (b!"alice", b) → Holds env b g →
      FInput.sameType (held (cpKey b!"|a|c")) g = true → g.compact ≠ (held (cpKey b!"|a|c")).compact :=
  ⟨.new, holds_held (by decide +kernel), held_ne, by decide, rfl, fun k b g h => by simp [Log.latest] at h⟩

end Ex
end KeyMgr
end Abe
