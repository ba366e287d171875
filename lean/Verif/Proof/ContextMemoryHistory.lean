import Verif.Proof.ContextMemoryDec
/-! Histories of calls, the end of the program, and the pointer of `getHashKey`. -/
set_option linter.unusedSimpArgs false
set_option linter.unusedSectionVars false
set_option autoImplicit false
namespace Abe
namespace Cm
open Live (Mut lift asZP asG1 asG2 asGT asBytes Two mapRes)
open Scheme
open Mem (Store Cell Heap Ptrs SimR Agree WRel Values at_ Ghost stored under objs owned)
variable {G1 G2 GT : Type}

/-! ## Containers and what the program holds -/

theorem owned_range : ∀ v : Values G1 G2 GT, owned v = (List.range v.length).flatMap fun i => objs (vals v i) := by
  intro v
  induction v using List.reverseRecOn with
  | nil => rfl
  | append_singleton v c ih =>
    rw [List.length_append, List.length_singleton, List.range_succ, List.flatMap_append]
    have e : ((List.range v.length).flatMap fun i => objs (vals (v ++ [c]) i)) =
        (List.range v.length).flatMap fun i => objs (vals v i) := by
      refine List.flatMap_congr fun i hi => ?_
      have hi := List.mem_range.mp hi
      unfold vals at_
      rw [List.getElem?_append_left hi]
    rw [e, ← ih]
    have e2 : owned (v ++ [c]) = owned v ++ owned [c] := List.flatMap_append ..
    rw [e2]
    congr 1
    unfold vals at_
    cases c <;> simp [owned, objs]

theorem flatMap_filter {α β : Type} (p : α → Bool) (g : α → List β) : ∀ l : List α, (∀ a ∈ l, p a = false → g a = []) →
    l.flatMap g = (l.filter p).flatMap g
  | [], _ => rfl
  | a :: l, h => by
    have ih := flatMap_filter p g l fun a ha => h a (List.mem_cons_of_mem _ ha)
    rw [List.flatMap_cons, ih]
    by_cases hp : p a = true
    · rw [List.filter_cons_of_pos hp, List.flatMap_cons]
    · rw [List.filter_cons_of_neg hp, h a List.mem_cons_self (by simpa using hp)]; rfl

theorem keyCells_map (f : Nat → Container G1 G2 GT) : ∀ m : SMap (Option (HKey G1 G2 GT)),
    (keyConts m).flatMap (fun i => objs (f i)) = keyCells (valMap f m)
  | [] => rfl
  | (id, o) :: m => by
    have ih := keyCells_map f m
    rw [conts_cons, List.flatMap_append, ih]
    cases o <;> simp [keyCells, valMap, contOf, objs, keyOf]

theorem held_cells (n : Nat) (f : Nat → Container G1 G2 GT) (w : Held G1 G2 GT) :
    (held n w).flatMap (fun i => objs (f i)) = cells n (asValues f w) := by
  unfold held owners cells
  rw [List.flatMap_append, List.flatMap_append, keyCells_map, keyCells_map]
  refine congrArg₂ _ (congrArg₂ _ rfl rfl) ?_
  induction List.range n with
  | nil => rfl
  | cons j l ih =>
    rw [List.flatMap_cons, ← ih, List.filterMap_cons]
    simp only [asValues]
    cases w.cts j <;> rfl

/-- The stored objects are those of the keys and the ciphertexts. -/
theorem Inv.cells {n : Nat} {v : Values G1 G2 GT} {w : Held G1 G2 GT} (h : Inv n [] v w) :
    (owned v).Perm (cells n (asValues (vals v) w)) := by
  rw [← held_cells, owned_range, flatMap_filter fun i => (at_ v i).isSome]
  · refine List.Perm.flatMap_right _ ((List.perm_ext_iff_of_nodup ?_ ?_).mpr fun i => ?_)
    · exact List.Nodup.filter _ List.nodup_range
    · exact h.nodup
    · rw [List.mem_filter, List.mem_range]
      refine ⟨fun hi => (h.here i).mp hi.2, fun hi => ?_⟩
      have hs := (h.here i).mpr hi
      obtain ⟨c, hc⟩ := Option.isSome_iff_exists.mp hs
      exact ⟨at_lt hc, hs⟩
  · intro i _ hi
    unfold vals
    cases hc : at_ v i with
    | none => rfl
    | some c => rw [hc] at hi; cases hi

theorem seen_eq {s : Mem.World G1 G2 GT × Held G1 G2 GT} {v : Values G1 G2 GT} {L : List (Cell G1 G2 GT)} (r : WRel s.1 v L) :
    seen s = asValues (vals v) s.2 := by
  unfold seen
  refine congrArg (asValues · s.2) (funext fun i => ?_)
  unfold components vals
  rw [Mem.at_eq r]
  cases (s.1.conts[i]?).join <;> rfl

/-! ## The end -/

theorem dropAll_run (cd : Codec G1 G2 GT) {n : Nat} {w : Held G1 G2 GT} (L : List (Cell G1 G2 GT)) :
    ∀ (l : List Nat) (v : Values G1 G2 GT), Inv n l v w →
      ∃ v', dropAll (onBook cd) l (v, L) = (.ok (), (v', L)) ∧ Inv n [] v' w
  | [], v, h => ⟨v, rfl, h⟩
  | k :: l, v, h => by
    obtain ⟨v', e, h'⟩ := dropAll_run cd L l _ h.gone
    refine ⟨v', ?_, h'⟩
    show Mut.bind _ _ _ = _
    simp only [Mut.bind]
    rw [drop_run cd ((h.here k).mpr (by simp)) L]
    exact e

theorem close_run (cd : Codec G1 G2 GT) {n : Nat} {v : Values G1 G2 GT} {w : Held G1 G2 GT} (h : Inv n [] v w)
    (L : List (Cell G1 G2 GT)) :
    ∃ v', close (onBook cd) n ((v, L), w) = (.ok (), (v', L), { w with ks := {}, cts := fun _ => none }) ∧ owned v' = [] := by
  have he : held n ({ w with ks := {}, cts := fun _ => none } : Held G1 G2 GT) = [] := by
    unfold held owners keyConts
    simp
  have h0 : Inv n (held n w) v { w with ks := {}, cts := fun _ => none } :=
    h.perm (by rw [he]; simp) (fun _ _ => rfl) ⟨trivial, trivial⟩
  obtain ⟨v', e, h'⟩ := dropAll_run cd L _ _ h0
  refine ⟨v', ?_, ?_⟩
  · unfold close
    simp only [mut_bind, Mut.bind, look, mem]
    rw [e]
  · have := h'.cells
    rw [← held_cells, he] at this
    exact List.perm_nil.mp this

/-! ## Histories -/

section Run
variable {q : Nat} [Fact q.Prime]
variable [AddCommGroup G1] [Module (ZMod q) G1] [AddCommGroup G2] [Module (ZMod q) G2] [AddCommGroup GT]
  [Module (ZMod q) GT]
variable {env : Env G1 G2 GT} {cd : Codec G1 G2 GT} {sch : Scheme}

theorem sim_run {σ τ : Type} {R : σ → τ → Prop} {A : Arena G1 G2 GT σ} {B : Arena G1 G2 GT τ} (h : Same R A B) :
    ∀ (cs : List (Live.Call q G1 G2)) (s : σ × Held G1 G2 GT) (t : τ × Held G1 G2 GT), Both R s t →
      (run A env cd sch s cs).1 = (run B env cd sch t cs).1 ∧ Both R (run A env cd sch s cs).2 (run B env cd sch t cs).2
  | [], s, t, r => ⟨rfl, r⟩
  | c :: cs, s, t, r => by
    obtain ⟨e, r'⟩ := sim_step h env cd sch c s t r
    unfold run
    rcases hs : step A env cd sch c s with ⟨x, s'⟩
    rcases ht : step B env cd sch c t with ⟨y, t'⟩
    rw [hs, ht] at e r'
    simp only at e r'
    subst e
    have ih := sim_run h cs s' t' r'
    cases x with
    | ok a => exact ⟨by simp only [ih.1], ih.2⟩
    | throw e => exact ⟨by simp only [ih.1], ih.2⟩
    | ub => exact ⟨rfl, r'⟩
    | abort => exact ⟨rfl, r'⟩

/-- A returned plaintext is that of a decryption, and leaves a buffer. -/
theorem plain_step {w : Live.World G1 G2 GT} {c : Live.Call q G1 G2} (h : isPlain (Live.step env cd sch w c).1 = true) :
    distinct env c ∧ left env cd sch w c = 1 := by
  cases c with
  | decrypt keyID j =>
    refine ⟨trivial, ?_⟩
    unfold left
    simp only [Live.step, Live.decrypt] at h
    cases hk : (w.ctx.ks.getSecretKey keyID).1 with
    | none => rw [hk] at h; cases h
    | some key =>
      rw [hk] at h
      simp only at h ⊢
      have hd : ∀ e, (decapsulate q env sch w.ctx (key.comps, (w.cts j).comps)).1 = e →
          (∀ K, e ≠ .ok K) → (Live.plainBody q env sch w.ctx (key.comps, (w.cts j).comps)).1 = match e with
            | .ok _ => .ub
            | .throw x => .throw x
            | .ub => .ub
            | .abort => .abort := by
        intro e he hn
        unfold decapsulate at he
        unfold Live.plainBody
        cases sch
        · simp only [mut_bind, Mut.bind] at he ⊢
          rcases hx : Live.cpDecBody q env w.ctx symKeyBytes (key.comps, (w.cts j).comps) with ⟨x, u⟩
          rw [hx] at he
          simp only at he
          subst he
          cases x with
          | ok K => exact absurd rfl (hn K)
          | throw e => rfl
          | ub => rfl
          | abort => rfl
        · simp only [mut_bind, Mut.bind] at he ⊢
          rcases hx : Live.kpDecBody q env w.ctx symKeyBytes (key.comps, (w.cts j).comps) with ⟨x, u⟩
          rw [hx] at he
          simp only at he
          subst he
          cases x with
          | ok K => exact absurd rfl (hn K)
          | throw e => rfl
          | ub => rfl
          | abort => rfl
      cases hb : (decapsulate q env sch w.ctx (key.comps, (w.cts j).comps)).1 with
      | ok K => simp only [hk, hb]; rfl
      | throw e =>
        rw [hd _ hb (by intro K h; cases h)] at h
        exact absurd h (by cases e <;> exact Bool.noConfusion)
      | ub => rw [hd _ hb (by intro K h; cases h)] at h; cases h
      | abort => rw [hd _ hb (by intro K h; cases h)] at h; cases h
  | params mpkID mskID r => simp only [Live.step] at h; cases hp : Scheme.generateParams env sch w.ctx mpkID mskID r <;> rw [hp] at h <;> cases h
  | keygen input keyID mpkID mskID r =>
    simp only [Live.step] at h
    cases hp : (Live.generateKey env sch w.ctx input keyID mpkID mskID r).1 <;> rw [hp] at h <;> cases h
  | encrypt j mpkID input p r =>
    simp only [Live.step] at h
    rcases hp : (Live.encrypt env sch w.ctx mpkID input p r {}).1 with (_ | _) | _ | _ | _ <;> rw [hp] at h <;> cases h
  | hashKey id => simp only [Live.step] at h; cases hp : (Live.getHashKey w.ctx id).1 <;> rw [hp] at h <;> cases h
  | exportKey id => simp only [Live.step] at h; cases hp : (Live.exportKey cd w.ctx id).1 <;> rw [hp] at h <;> cases h
  | loadKey id b r k =>
    simp only [Live.step] at h
    cases hp : (Live.loadKey env.mktime cd w.ctx id b r k).1 <;> rw [hp] at h <;> cases h
  | deleteKey id => cases h
  | check id => cases h
  | exportCt j => simp only [Live.step] at h; cases hp : (w.cts j).exportBytes cd <;> rw [hp] at h <;> cases h
  | loadCt j b => simp only [Live.step] at h; cases hp : Ciphertext.load env.mktime cd {} b <;> rw [hp] at h <;> cases h

theorem run_book : ∀ (cs : List (Live.Call q G1 G2)) (n : Nat) (v : Values G1 G2 GT) (w : Held G1 G2 GT) (L : List (Cell G1 G2 GT)),
    Inv n [] v w → (∀ c ∈ cs, below n c) →
    (run (onBook cd) env cd sch ((v, L), w) cs).1 = (history env cd sch (asValues (vals v) w) cs).1 ∧
    ((∀ r ∈ (run (onBook cd) env cd sch ((v, L), w) cs).1, r.Defined) →
      Inv n [] (run (onBook cd) env cd sch ((v, L), w) cs).2.1.1 (run (onBook cd) env cd sch ((v, L), w) cs).2.2 ∧
      asValues (vals (run (onBook cd) env cd sch ((v, L), w) cs).2.1.1) (run (onBook cd) env cd sch ((v, L), w) cs).2.2 =
        (history env cd sch (asValues (vals v) w) cs).2 ∧
      ∃ D, (run (onBook cd) env cd sch ((v, L), w) cs).2.1.2 = L ++ D ∧
        ((∀ c ∈ cs, distinct env c) → D.length = leftBy env cd sch (asValues (vals v) w) cs) ∧
        (run (onBook cd) env cd sch ((v, L), w) cs).1.countP isPlain ≤ D.length)
  | [], n, v, w, L, hi, _ => ⟨rfl, fun _ => ⟨hi, rfl, [], by simp [run], fun _ => rfl, by simp [run]⟩⟩
  | c :: cs, n, v, w, L, hi, hb => by
    have hf := fine_step (L := L) env cd sch hi c (hb c List.mem_cons_self)
    have hp := plain_step (env := env) (cd := cd) (sch := sch) (w := asValues (vals v) w) (c := c)
    obtain ⟨e, hd⟩ := hf
    unfold run history leftBy
    rcases hs : step (onBook cd) env cd sch c ((v, L), w) with ⟨x, ⟨v', L'⟩, w'⟩
    rcases ht : Live.step env cd sch (asValues (vals v) w) c with ⟨y, u⟩
    rw [hs] at e hd
    rw [ht] at e hd hp
    simp only at e hd hp
    subst e
    have main : x.Defined → ∀ l : List (Live.Call q G1 G2), l = cs →
        (run (onBook cd) env cd sch ((v', L'), w') l).1 = (history env cd sch u l).1 ∧
        ((∀ r ∈ x :: (run (onBook cd) env cd sch ((v', L'), w') l).1, r.Defined) →
          Inv n [] (run (onBook cd) env cd sch ((v', L'), w') l).2.1.1 (run (onBook cd) env cd sch ((v', L'), w') l).2.2 ∧
          asValues (vals (run (onBook cd) env cd sch ((v', L'), w') l).2.1.1) (run (onBook cd) env cd sch ((v', L'), w') l).2.2 =
            (history env cd sch u l).2 ∧
          ∃ D, (run (onBook cd) env cd sch ((v', L'), w') l).2.1.2 = L ++ D ∧
            ((∀ c' ∈ c :: cs, distinct env c') → D.length = left env cd sch (asValues (vals v) w) c + leftBy env cd sch u cs) ∧
            (x :: (run (onBook cd) env cd sch ((v', L'), w') l).1).countP isPlain ≤ D.length) := by
      intro hx l hl
      subst hl
      obtain ⟨hi', hu, D, hD, hP⟩ := hd hx
      have ih := run_book l n v' w' L' hi' fun c hc => hb c (List.mem_cons_of_mem _ hc)
      rw [hu] at ih
      refine ⟨ih.1, fun hall => ?_⟩
      obtain ⟨i1, i2, D', i3, i4, i5⟩ := ih.2 fun r hr => hall r (List.mem_cons_of_mem _ hr)
      refine ⟨i1, i2, D ++ D', by rw [i3, hD, List.append_assoc], fun hdis => ?_, ?_⟩
      · rw [List.length_append, hP (hdis c List.mem_cons_self), i4 fun c hc => hdis c (List.mem_cons_of_mem _ hc)]
      · rw [List.countP_cons, List.length_append]
        cases hpl : isPlain x with
        | false => simp; omega
        | true =>
          obtain ⟨h1, h2⟩ := hp hpl
          have := hP h1
          simp; omega
    cases x with
    | ok a =>
      have := main trivial cs rfl
      exact ⟨by simp only [this.1], this.2⟩
    | throw e =>
      have := main trivial cs rfl
      exact ⟨by simp only [this.1], this.2⟩
    | ub => exact ⟨rfl, fun hall => absurd (hall .ub (by simp)) (by simp [Res.Defined])⟩
    | abort => exact ⟨rfl, fun hall => absurd (hall .abort (by simp)) (by simp [Res.Defined])⟩

end Run

/-! ## Freed objects -/

theorem free_get {h h' : Heap G1 G2 GT} {i a : Nat} (e : h.free i = .ok h') :
    (h.get a = none → h'.get a = none) ∧ (a = i → h'.get a = none) := by
  unfold Heap.free at e
  cases hg : h.get i with
  | none => rw [hg] at e; cases e
  | some x =>
    rw [hg] at e
    cases e
    unfold Heap.get
    simp only
    rw [List.getElem?_set]
    refine ⟨fun hn => ?_, fun ha => ?_⟩
    · by_cases hi : i = a
      · rw [if_pos hi]; split <;> rfl
      · rw [if_neg hi]; exact hn
    · rw [if_pos ha.symm]; split <;> rfl

theorem loop_get : ∀ (d : Ptrs) (h h' : Heap G1 G2 GT) (a : Nat), Mem.destroyLoop h d = .ok h' →
    (h.get a = none → h'.get a = none) ∧ ((∃ n, (n, some a) ∈ d) → h'.get a = none)
  | [], h, h', a, e => by cases e; exact ⟨fun x => x, fun ⟨_, hm⟩ => absurd hm (by simp)⟩
  | (m, none) :: d, h, h', a, e => by
    obtain ⟨h1, h2⟩ := loop_get d h h' a e
    refine ⟨h1, fun ⟨n, hm⟩ => h2 ⟨n, ?_⟩⟩
    rcases List.mem_cons.mp hm with hm | hm
    · cases hm
    · exact hm
  | (m, some b) :: d, h, h', a, e => by
    unfold Mem.destroyLoop at e
    obtain ⟨h0, e0, e⟩ := by rw [Res.bind_eq_ok] at e; exact e
    obtain ⟨f1, f2⟩ := free_get (a := a) e0
    obtain ⟨h1, h2⟩ := loop_get d h0 h' a e
    refine ⟨fun hn => h1 (f1 hn), fun ⟨n, hm⟩ => ?_⟩
    rcases List.mem_cons.mp hm with hm | hm
    · exact h1 (f2 (by cases hm; rfl))
    · exact h2 ⟨n, hm⟩

theorem drop_get (cd : Codec G1 G2 GT) {w w' : Mem.World G1 G2 GT} {i a : Nat} (e : (onWorld cd).drop i w = (.ok (), w')) :
    (w.heap.get a = none → w'.heap.get a = none) ∧
    (∀ d, (w.conts[i]?).join = some d → (∃ n, (n, some a) ∈ d) → w'.heap.get a = none) := by
  simp only [onWorld, mut_bind, Mut.bind, inside] at e
  cases hc : (w.conts[i]?).join with
  | none => rw [hc] at e; cases e
  | some d =>
    rw [hc] at e
    simp only [Mem.destroy] at e
    cases hl : Mem.destroyLoop w.heap d with
    | ok h =>
      rw [hl] at e
      simp only [forget] at e
      cases e
      obtain ⟨h1, h2⟩ := loop_get d _ _ a hl
      exact ⟨h1, fun d' hd => by cases hd; exact h2⟩
    | throw e' => rw [hl] at e; cases e
    | ub => rw [hl] at e; cases e
    | abort => rw [hl] at e; cases e

theorem release_get (cd : Codec G1 G2 GT) {s s' : Mem.World G1 G2 GT × Held G1 G2 GT} {o : Option (HKey G1 G2 GT)} {a : Nat}
    (e : release (onWorld cd) o s = (.ok (), s')) :
    (s.1.heap.get a = none → s'.1.heap.get a = none) ∧
    (∀ k d, o = some k → k.cont ∉ owners s.2.ks → (s.1.conts[k.cont]?).join = some d → (∃ n, (n, some a) ∈ d) →
      s'.1.heap.get a = none) := by
  cases o with
  | none => cases e; exact ⟨fun h => h, fun _ _ h => by cases h⟩
  | some k =>
    unfold release at e
    simp only at e
    by_cases hk : k.cont ∈ owners s.2.ks
    · rw [if_pos hk] at e
      cases e
      exact ⟨fun h => h, fun k' d hk' hn => by cases hk'; exact absurd hk hn⟩
    · rw [if_neg hk] at e
      simp only [mem] at e
      rcases hd : (onWorld cd).drop k.cont s.1 with ⟨x, w'⟩
      rw [hd] at e
      cases e
      obtain ⟨h1, h2⟩ := drop_get cd (a := a) hd
      exact ⟨h1, fun k' d hk' _ hc hm => by cases hk'; exact h2 d hc hm⟩

/-- The key of a name is destroyed with its entry: what it pointed to is gone. -/
theorem delete_get (cd : Codec G1 G2 GT) {s s' : Mem.World G1 G2 GT × Held G1 G2 GT} {id : Bytes} {c : Option Err} {k : HKey G1 G2 GT}
    {d : Ptrs} {a : Nat} (e : deleteKey (onWorld cd) id s = (.ok c, s')) (hk : pointer id s.2.ks.pub = some k)
    (hn : k.cont ∉ owners (s.2.ks.deleteKey id).2) (hd : (s.1.conts[k.cont]?).join = some d) (ha : ∃ n, (n, some a) ∈ d) :
    s'.1.heap.get a = none := by
  unfold deleteKey at e
  simp only [mut_bind, Mut.bind, look] at e
  rcases h1 : release (onWorld cd) (pointer id s.2.ks.pub) (s.1, { s.2 with ks := (s.2.ks.deleteKey id).2 }) with ⟨x1, s1⟩
  rw [h1] at e
  cases x1 with
  | ok u =>
    simp only at e
    rcases h2 : release (onWorld cd) (pointer id s.2.ks.sec) s1 with ⟨x2, s2⟩
    rw [h2] at e
    cases x2 with
    | ok u' =>
      simp only [lift] at e
      cases e
      exact (release_get cd h2).1 ((release_get cd h1).2 k d hk hn hd ha)
    | throw e' => cases e
    | ub => cases e
    | abort => cases e
  | throw e' => cases e
  | ub => cases e
  | abort => cases e

end Cm
end Abe
