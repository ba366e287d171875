import Verif.Proof.MemoryScheme
import Verif.Props.Collusion
/-!
# The memory of containers and of the schemes: properties C120 and C121
-/
set_option linter.unusedSimpArgs false
set_option linter.unusedSectionVars false
set_option autoImplicit false
namespace Abe
namespace Mem
open Live (Mut lift)
open Scheme
variable {G1 G2 GT : Type}

/-! ## C120: containers -/

/-- For every history of calls on any number of containers, created, filled, read, written, loaded and destroyed in any order:
every call on pointers returns what the call on values returns, so there is no double free, no access to released memory and no
other memory error unless the call on values is undefined already; the containers have the same components; and what exists
in memory is exactly the components of the containers that were not destroyed and what the calls left behind. -/
theorem C120_history (mk : Mktime) (cd : Codec G1 G2 GT) (cs : List (Call G1 G2 GT)) :
    (({} : World G1 G2 GT).run mk cd cs).1 = (history mk cd [] cs).1 ∧
    (({} : World G1 G2 GT).run mk cd cs).2.conts.map (Option.map (view (({} : World G1 G2 GT).run mk cd cs).2.heap)) =
      (history mk cd [] cs).2.1 ∧
    (({} : World G1 G2 GT).run mk cd cs).2.heap.live.Perm (owned (history mk cd [] cs).2.1 ++ (history mk cd [] cs).2.2) := by
  obtain ⟨h1, h2⟩ := world_run_sim mk cd cs {} [] [] wrel_empty
  exact ⟨h1, h2.val, by simpa using h2.live⟩

/-- When all containers have been destroyed, what remains is exactly what the calls left behind. -/
theorem C120_leak (mk : Mktime) (cd : Codec G1 G2 GT) (cs : List (Call G1 G2 GT))
    (h : ∀ c ∈ (history mk cd [] cs).2.1, c = none) :
    (({} : World G1 G2 GT).run mk cd cs).2.heap.live.Perm (history mk cd [] cs).2.2 := by
  have h2 := (C120_history mk cd cs).2.2
  have : owned (history mk cd [] cs).2.1 = [] := by
    unfold owned
    rw [List.flatMap_eq_nil_iff]
    intro c hc
    rw [h c hc]
  rwa [this, List.nil_append] at h2

/-! ### Histories that leave nothing behind -/

/-- The names that calls set, with the container. -/
def setNames : List (Call G1 G2 GT) → List (Nat × Bytes)
  | [] => []
  | .set i n _ :: cs => (i, n) :: setNames cs
  | _ :: cs => setNames cs

/-- A call that creates, sets, gets or destroys. -/
def plain : Call G1 G2 GT → Bool
  | .delete _ _ => false
  | .write _ => false
  | .read _ _ => false
  | _ => true

theorem at_set (w : Values G1 G2 GT) (i j : Nat) (c : Option (Container G1 G2 GT)) (hi : i < w.length) :
    at_ (w.set i c) j = if i = j then c else at_ w j := by
  unfold at_
  rw [List.getElem?_set]
  split
  · rename_i e; subst e; simp [hi]
  · rfl

theorem at_lt {w : Values G1 G2 GT} {i : Nat} {c : Container G1 G2 GT} (h : at_ w i = some c) : i < w.length := by
  unfold at_ at h
  by_cases hl : i < w.length
  · exact hl
  · rw [List.getElem?_eq_none (by omega)] at h; cases h

theorem under_insert (c : Container G1 G2 GT) (n m : Bytes) (o : Obj G1 G2 GT) :
    under (SMap.insert n o c) m = if m = n then one o else under c m := by
  unfold under
  rw [SMap.find_insert]
  by_cases h : m = n
  · rw [if_pos h, if_pos h]
  · rw [if_neg h, if_neg h]

/-- After a plain call, a name of a container has an object only if it had one or the call has set it. -/
theorem plain_step (mk : Mktime) (cd : Codec G1 G2 GT) (w : Values G1 G2 GT) (x : Call G1 G2 GT) (hx : plain x = true)
    {j : Nat} {c : Container G1 G2 GT} {m : Bytes} (hc : at_ (step mk cd w x).2 j = some c) (hm : under c m ≠ []) :
    (∃ c0, at_ w j = some c0 ∧ under c0 m ≠ []) ∨ ∃ o, x = .set j m o := by
  cases x with
  | delete i n => cases hx
  | write i => cases hx
  | read i b => cases hx
  | create =>
    simp only [step, at_] at hc
    rw [List.getElem?_append] at hc
    split at hc
    · exact Or.inl ⟨c, hc, hm⟩
    · rename_i hl
      by_cases hj : j - w.length = 0
      · rw [hj] at hc
        simp only [List.getElem?_cons_zero, Option.join_some, Option.some.injEq] at hc
        subst hc
        exact absurd rfl hm
      · rw [List.getElem?_eq_none (by simp; omega)] at hc; cases hc
  | destroy i =>
    simp only [step] at hc
    cases hi : at_ w i with
    | none => rw [hi] at hc; exact Or.inl ⟨c, hc, hm⟩
    | some d =>
      rw [hi] at hc
      simp only [at_set w i j _ (at_lt hi)] at hc
      split at hc
      · cases hc
      · exact Or.inl ⟨c, hc, hm⟩
  | get i n =>
    simp only [step] at hc
    cases hi : at_ w i with
    | none => rw [hi] at hc; exact Or.inl ⟨c, hc, hm⟩
    | some d =>
      rw [hi] at hc
      simp only [at_set w i j _ (at_lt hi)] at hc
      split at hc
      · rename_i e
        subst e
        refine Or.inl ⟨d, hi, ?_⟩
        simp only [Option.some.injEq] at hc
        unfold Container.getComponent at hc
        split at hc
        · simp only at hc
          subst hc
          rw [under_insert] at hm
          split at hm
          · exact absurd rfl hm
          · exact hm
        all_goals (simp only at hc; subst hc; exact hm)
      · exact Or.inl ⟨c, hc, hm⟩
  | set i n o =>
    simp only [step] at hc
    cases hi : at_ w i with
    | none => rw [hi] at hc; exact Or.inl ⟨c, hc, hm⟩
    | some d =>
      rw [hi] at hc
      simp only at hc
      by_cases ho : o = .null
      · subst ho
        exact Or.inl ⟨c, hc, hm⟩
      · rw [set_stored ho] at hc
        simp only [at_set w i j _ (at_lt hi)] at hc
        split at hc
        · rename_i e
          subst e
          simp only [Option.some.injEq] at hc
          subst hc
          rw [under_insert] at hm
          split at hm
          · rename_i e; subst e; exact Or.inr ⟨o, rfl⟩
          · exact Or.inl ⟨d, hi, hm⟩
        · exact Or.inl ⟨c, hc, hm⟩

theorem plain_lost (mk : Mktime) (cd : Codec G1 G2 GT) : ∀ (cs : List (Call G1 G2 GT)) (w : Values G1 G2 GT),
    (∀ x ∈ cs, plain x = true) → (setNames cs).Nodup →
    (∀ e ∈ setNames cs, ∀ c, at_ w e.1 = some c → under c e.2 = []) → (history mk cd w cs).2.2 = []
  | [], _, _, _, _ => rfl
  | x :: cs, w, hp, hd, hf => by
    have hx := hp x (by simp)
    have hd' : (setNames cs).Nodup := by
      cases x with
      | set i n o => exact (List.nodup_cons.mp hd).2
      | _ => exact hd
    have hsub : ∀ e ∈ setNames cs, e ∈ setNames (x :: cs) := by
      intro e he
      cases x with
      | set i n o => exact List.mem_cons_of_mem _ he
      | _ => exact he
    have h1 : lost mk cd w x = [] := by
      cases x with
      | delete i n => cases hx
      | write i => cases hx
      | read i b => cases hx
      | set i n o =>
        have := hf (i, n) (by simp [setNames])
        cases hi : at_ w i with
        | none => simp only [lost, hi]
        | some c => cases o <;> simp only [lost, hi] <;> exact this c hi
      | _ => rfl
    have h2 : (history mk cd (step mk cd w x).2 cs).2.2 = [] := by
      refine plain_lost mk cd cs _ (fun y hy => hp y (by simp [hy])) hd' ?_
      intro e he c hc
      by_contra hm
      rcases plain_step mk cd w x hx hc hm with ⟨c0, h0, h1⟩ | ⟨o, rfl⟩
      · exact h1 (hf e (hsub e he) c0 h0)
      · exact (List.nodup_cons.mp hd).1 he
    simp only [history]
    split
    · rw [h1, h2]; rfl
    · rw [h1, h2]; rfl
    · exact h1

/-- Partial: a history that creates, sets, gets and destroys, sets no name of a container twice and destroys all containers
leaves nothing in memory. Missing: deleting, writing, loading and setting a name again. -/
theorem C120_nothing_left_partial (mk : Mktime) (cd : Codec G1 G2 GT) (cs : List (Call G1 G2 GT))
    (hp : ∀ x ∈ cs, plain x = true) (hd : (setNames cs).Nodup) (h : ∀ c ∈ (history mk cd [] cs).2.1, c = none) :
    (({} : World G1 G2 GT).run mk cd cs).2.heap.live = [] := by
  have h1 := C120_leak mk cd cs h
  rw [plain_lost mk cd cs [] hp hd (by intro e _ c hc; simp [at_] at hc)] at h1
  exact h1.eq_nil

theorem history_ok (mk : Mktime) (cd : Codec G1 G2 GT) {w w' : Values G1 G2 GT} {x : Call G1 G2 GT} {a : Ans G1 G2 GT}
    {cs : List (Call G1 G2 GT)} (h : step mk cd w x = (.ok a, w')) : history mk cd w (x :: cs) =
      (.ok a :: (history mk cd w' cs).1, (history mk cd w' cs).2.1, lost mk cd w x ++ (history mk cd w' cs).2.2) := by
  simp only [history, h]

/-- Two containers with a component of the same name. -/
example (mk : Mktime) (cd : Codec G1 G2 GT) (x : G1) (y : G2) :
    let cs : List (Call G1 G2 GT) := [.create, .set 0 b!"a" (.g1 x), .create, .set 1 b!"a" (.g2 y), .destroy 0, .get 1 b!"a",
      .destroy 1]
    (∀ c ∈ cs, plain c = true) ∧ (setNames cs).Nodup ∧ (∀ c ∈ (history mk cd [] cs).2.1, c = none) ∧
      (history mk cd [] cs).1 = [.ok .done, .ok .done, .ok .done, .ok .done, .ok .done, .ok (.obj (.g2 y)), .ok .done] := by
  intro cs
  have e1 : step mk cd [] (.create : Call G1 G2 GT) = (.ok .done, [some []]) := rfl
  have e2 : step mk cd [some []] (.set 0 b!"a" (.g1 x) : Call G1 G2 GT) = (.ok .done, [some [(b!"a", .g1 x)]]) := rfl
  have e3 : step mk cd [some [(b!"a", .g1 x)]] (.create : Call G1 G2 GT) = (.ok .done, [some [(b!"a", .g1 x)], some []]) := rfl
  have e4 : step mk cd [some [(b!"a", .g1 x)], some []] (.set 1 b!"a" (.g2 y) : Call G1 G2 GT) =
    (.ok .done, [some [(b!"a", .g1 x)], some [(b!"a", .g2 y)]]) := rfl
  have e5 : step mk cd [some [(b!"a", .g1 x)], some [(b!"a", .g2 y)]] (.destroy 0 : Call G1 G2 GT) =
    (.ok .done, [none, some [(b!"a", .g2 y)]]) := rfl
  have e6 : step mk cd [none, some [(b!"a", .g2 y)]] (.get 1 b!"a" : Call G1 G2 GT) =
    (.ok (.obj (.g2 y)), [none, some [(b!"a", .g2 y)]]) := rfl
  have e7 : step mk cd [none, some [(b!"a", .g2 y)]] (.destroy 1 : Call G1 G2 GT) = (.ok .done, [none, none]) := rfl
  refine ⟨by simp [cs, plain], by simp [cs, setNames], ?_, ?_⟩
  · simp only [cs]
    rw [history_ok mk cd e1, history_ok mk cd e2, history_ok mk cd e3, history_ok mk cd e4, history_ok mk cd e5,
      history_ok mk cd e6, history_ok mk cd e7]
    simp [history]
  · simp only [cs]
    rw [history_ok mk cd e1, history_ok mk cd e2, history_ok mk cd e3, history_ok mk cd e4, history_ok mk cd e5,
      history_ok mk cd e6, history_ok mk cd e7]
    rfl

/-! ### What leaks -/

/-- Setting a component again leaks the first object (zcontainer.cpp:84-88). -/
theorem C120_overwrite_violated (mk : Mktime) (cd : Codec G1 G2 GT) (n a b : Bytes) :
    (({} : World G1 G2 GT).run mk cd [.create, .set 0 n (.bytes a), .set 0 n (.bytes b), .destroy 0]).2.heap.live =
      [.obj (.bytes a)] := by
  simp [World.run, World.step, World.on, setComponent, Obj.clone, Heap.alloc, SMap.insert, answer, destroy, destroyLoop,
    Heap.free, Heap.get, Heap.live, blt_irrefl]

/-- Deleting a component leaks its object (zcontainer.cpp:108-116). -/
theorem C120_delete_violated (mk : Mktime) (cd : Codec G1 G2 GT) (n a : Bytes) :
    (({} : World G1 G2 GT).run mk cd [.create, .set 0 n (.bytes a), .delete 0 n, .destroy 0]).2.heap.live =
      [.obj (.bytes a)] := by
  simp [World.run, World.step, World.on, setComponent, deleteComponent, Obj.clone, Heap.alloc, SMap.insert, SMap.find,
    SMap.erase, answer, destroy, destroyLoop, Heap.free, Heap.get, Heap.live]

/-- A blob with the component `a` twice. -/
def twice : Bytes :=
  BS.smartPack (BS.smartPack [] b!"a") (BS.serialize [7]) ++ BS.smartPack (BS.smartPack [] b!"a") (BS.serialize [8])

set_option maxRecDepth 20000 in
/-- Loading a blob in which a name comes twice leaks an object (zcontainer.cpp:208-219): anyone who sends keys or ciphertexts
can make the receiver lose memory. -/
theorem C120_duplicate_violated (mk : Mktime) (cd : Codec G1 G2 GT) :
    (({} : World G1 G2 GT).run mk cd [.create, .read 0 twice, .destroy 0]).1 = [.ok .done, .ok .done, .ok .done] ∧
    (({} : World G1 G2 GT).run mk cd [.create, .read 0 twice, .destroy 0]).2.heap.live = [.obj (.bytes [7])] :=
  ⟨by rfl, by rfl⟩

theorem history_writes (mk : Mktime) (cd : Codec G1 G2 GT) (n : Bytes) (x : G1) : ∀ k : Nat,
    (history mk cd [some [(n, .g1 x)]] (List.replicate k (.write 0) ++ [.destroy 0])).2.2 = List.replicate k (.buf (cd.w1 x)) ∧
    (history mk cd [some [(n, .g1 x)]] (List.replicate k (.write 0) ++ [.destroy 0])).2.1 = [none]
  | 0 => ⟨rfl, rfl⟩
  | k + 1 => by
    obtain ⟨h1, h2⟩ := history_writes mk cd n x k
    have e : step mk cd [some [(n, (.g1 x : Obj G1 G2 GT))]] (.write 0) =
        (.ok (.bytes (BS.smartPack (BS.smartPack [] n) (groupSerialize 0xB2 (cd.w1 x)) ++ [])), [some [(n, .g1 x)]]) := rfl
    rw [List.replicate_succ, List.cons_append, history_ok mk cd e, h1, h2]
    exact ⟨rfl, rfl⟩

/-- Writing a container leaks a buffer for each group element (zelement_bp.cpp:540-560, 706-726, 851-871): after writing a
container with one point `k` times and destroying it, `k` buffers are left. -/
theorem C120_buffers_violated (mk : Mktime) (cd : Codec G1 G2 GT) (n : Bytes) (x : G1) (k : Nat) :
    (({} : World G1 G2 GT).run mk cd (.create :: .set 0 n (.g1 x) :: (List.replicate k (.write 0) ++ [.destroy 0]))).2.heap.live.Perm
      (List.replicate k (.buf (cd.w1 x))) := by
  obtain ⟨h1, h2⟩ := history_writes (G2 := G2) (GT := GT) mk cd n x k
  have e1 : (history mk cd [] (.create :: .set 0 n (.g1 x) :: (List.replicate k (.write 0) ++ [.destroy 0]))).2.1 = [none] := h2
  have e2 : (history mk cd [] (.create :: .set 0 n (.g1 x) :: (List.replicate k (.write 0) ++ [.destroy 0]))).2.2 =
      List.replicate k (.buf (cd.w1 x)) := h1
  rw [← e2]
  apply C120_leak
  rw [e1]
  simp

/-- The compiler's copy constructor copies the pointers (include/abe/zcontainer.h:47-86), so destroying a container and its
copy releases every object twice, which is undefined. -/
theorem C120_copy_violated (mk : Mktime) (cd : Codec G1 G2 GT) (n a : Bytes) :
    (((({} : World G1 G2 GT).run mk cd [.create, .set 0 n (.bytes a)]).2.copy 0).run mk cd [.destroy 1, .destroy 0]).1 =
      [.ok .done, .ub] := by
  simp [World.run, World.step, World.on, World.copy, setComponent, Obj.clone, Heap.alloc, SMap.insert, answer, destroy,
    destroyLoop, Heap.free, Heap.get]

/-! ## C121: the schemes -/

section Schemes
variable {q : Nat} [Fact q.Prime]
variable [AddCommGroup G1] [Module (ZMod q) G1] [AddCommGroup G2] [Module (ZMod q) G2] [AddCommGroup GT]
  [Module (ZMod q) GT]

/-- What is left when the container is destroyed afterwards. -/
theorem after_destroy {F : List (Nat × Obj G1 G2 GT)} {s : State G1 G2 GT} {c : Container G1 G2 GT} {L : List (Cell G1 G2 GT)}
    (r : Rel F s (c, L)) : (destroy s).1 = .ok () ∧
      (destroy s).2.1.live.Perm (F.map (fun e => Cell.obj e.2) ++ L) := by
  obtain ⟨h1, h2⟩ := rel_destroy r
  exact ⟨h1, by simpa [objs] using h2.live⟩

/-- Generating a decryption key for attributes, on any heap, for all keys, attribute lists and randomness: the outcome and the
key are those on values; then destroying the key (an exception does this too) is without error and leaves `left` in addition to
what was there before. Nothing is left if the names of the attributes in the key are different; on success exactly the
repetitions are left. -/
theorem C121_cp_key (env : Env G1 G2 GT) (c : Ctx G1 G2 GT) (mpk msk : Key G1 G2 GT) (l : AttrList) (t : ZMod q)
    (h : Heap G1 G2 GT) :
    let s := cpKeyBody onHeap env c mpk msk l t (h, [])
    let names := l.attrs.map (hashKey env.md)
    Scheme.cpKeyBody env c mpk msk l t = (s.1 >>= fun _ => .ok (view s.2.1 s.2.2)) ∧
    (destroy s.2).1 = .ok () ∧
    ∃ left, (destroy s.2).2.1.live.Perm (h.live ++ left) ∧
      (s.1 = .ok () → left.length + names.dedup.length = names.length) ∧ (names.Nodup → left = []) := by
  intro s names
  obtain ⟨h1, left, h2, h4, h5⟩ := fill_heap (agree_heap.cpKeyBody env c mpk msk l t)
    (agree_values.cpKeyBody env c mpk msk l t) (trace_cpKeyBody env c mpk msk l t) (rel_start h) (by simp)
  rw [cpKeyBody_values] at h1
  obtain ⟨h6, h7⟩ := after_destroy h2
  refine ⟨?_, h6, left, by simpa using h7, ?_, ?_⟩
  · have := congrArg (fun x => x >>= fun y => Res.ok y.2) h1
    simp only [res_assoc, Res.ok_bind] at this
    rw [bind_snd] at this
    exact this
  · intro ho
    have := h4 () ho
    rw [filter_empty, cpKeyNames_dedup] at this
    simp only [cpKeyNames, List.length_cons, List.length_map] at this
    simp only [names, List.length_map]
    omega
  · intro hd
    have := h5 (cpKeyNames_nodup hd) (fun _ _ => rfl)
    exact List.eq_nil_of_length_eq_zero (by omega)

/-- A key for an attribute list that repeats an attribute leaks: if two of the attributes are equal and the key is generated, there is more in memory after
the key is destroyed than before. -/
theorem C121_repeated_violated (env : Env G1 G2 GT) (c : Ctx G1 G2 GT) (mpk msk : Key G1 G2 GT) (l : AttrList) (t : ZMod q)
    (h : Heap G1 G2 GT) (hok : (cpKeyBody onHeap env c mpk msk l t (h, [])).1 = .ok ()) (hd : ¬ l.attrs.Nodup) :
    h.live.length < (destroy (cpKeyBody onHeap env c mpk msk l t (h, [])).2).2.1.live.length := by
  obtain ⟨_, _, left, h1, h2, _⟩ := C121_cp_key env c mpk msk l t h
  have h2 := h2 hok
  rw [h1.length_eq, List.length_append]
  have : (l.attrs.map (hashKey env.md)).dedup.length ≠ (l.attrs.map (hashKey env.md)).length := by
    intro e
    have := (List.dedup_sublist (l.attrs.map (hashKey env.md))).eq_of_length e
    rw [List.dedup_eq_self] at this
    exact hd (List.Nodup.of_map _ this)
  have := (List.dedup_sublist (l.attrs.map (hashKey env.md))).length_le
  omega

/-- The same for a decryption key for a policy, with the rows of the sharing; each repetition leaves two objects. -/
theorem C121_kp_key (env : Env G1 G2 GT) (c : Ctx G1 G2 GT) (mpk msk : Key G1 G2 GT) (p : Policy) (tape r : Nat → ZMod q)
    (h : Heap G1 G2 GT) :
    let s := kpKeyBody onHeap env c mpk msk p tape r (h, [])
    let names := (sharedNames (kpSharing env msk p tape)).map (hashKey env.md)
    Scheme.kpKeyBody env c mpk msk p tape r = (s.1 >>= fun _ => .ok (view s.2.1 s.2.2)) ∧
    (destroy s.2).1 = .ok () ∧
    ∃ left, (destroy s.2).2.1.live.Perm (h.live ++ left) ∧
      (s.1 = .ok () → left.length + 2 * names.dedup.length = 2 * names.length) ∧ (names.Nodup → left = []) := by
  intro s names
  obtain ⟨h1, left, h2, h4, h5⟩ := fill_heap (agree_heap.kpKeyBody env c mpk msk p tape r)
    (agree_values.kpKeyBody env c mpk msk p tape r) (trace_kpKeyBody env c mpk msk p tape r) (rel_start h) (by simp)
  rw [kpKeyBody_values] at h1
  obtain ⟨h6, h7⟩ := after_destroy h2
  refine ⟨?_, h6, left, by simpa using h7, ?_, ?_⟩
  · have := congrArg (fun x => x >>= fun y => Res.ok y.2) h1
    simp only [res_assoc, Res.ok_bind] at this
    rw [bind_snd] at this
    exact this
  · intro ho
    have := h4 () ho
    rw [filter_empty, kpKeyNames_dedup] at this
    simp only [List.length_cons, rowNames_length] at this
    simp only [names, List.length_map]
    omega
  · intro hd
    have := h5 (kpKeyNames_nodup hd) (fun _ _ => rfl)
    exact List.eq_nil_of_length_eq_zero (by omega)

/-- Encrypting into a ciphertext with components `ct.comps` (its pointers are `ps`, `L` was left behind before, `F` belongs to
others): if the encryption on values succeeds, so does the one on pointers, with the same ciphertext; and it leaves behind
exactly one buffer and one object for each name that had a component before, in the ciphertext or from this encryption. -/
theorem C121_encrypt {env : Env G1 G2 GT} {sch : Scheme} {c c' : Ctx G1 G2 GT} {mpkID : Bytes} {input : FInput}
    {plaintext : Bytes} {r : Rand q} {ct ct' : Ciphertext G1 G2 GT} {F : List (Nat × Obj G1 G2 GT)} {h : Heap G1 G2 GT}
    {ps : Ptrs} {L : List (Cell G1 G2 GT)}
    (he : Scheme.encrypt env sch c mpkID input plaintext r ct = .ok (.ok ct', c'))
    (hr : Rel F (h, ps) (ct.comps, L)) (hn : ∀ e ∈ ct.comps, e.2 ≠ .null) :
    ∃ mpk, (c.ks.getPublicKey mpkID).1 = some mpk ∧
      let s := encryptBody onHeap env c mpk sch input plaintext r (h, ps)
      let names := ctNames env.md sch input (inputRows env r input)
      s.1 = .ok () ∧ view s.2.1 s.2.2 = ct'.comps ∧
      ∃ left, Rel F s.2 (ct'.comps, L ++ left) ∧
        left.length + (names.dedup.filter fun n => (SMap.find n ct.comps).isNone).length = 1 + names.length := by
  obtain ⟨mpk, h0, h1⟩ := encrypt_values he
  refine ⟨mpk, h0, ?_⟩
  intro s names
  obtain ⟨g1, left, g2, g4, _⟩ := fill_heap (agree_heap.encryptBody env c mpk sch input plaintext r)
    (agree_values.encryptBody env c mpk sch input plaintext r) (trace_encryptBody env c mpk sch input plaintext r) hr hn
  rw [h1] at g1
  have hs : s.1 = .ok () ∧ view s.2.1 s.2.2 = ct'.comps := by
    have g1 := g1.symm
    rw [Res.bind_eq_ok] at g1
    obtain ⟨u, e1, e2⟩ := g1
    injection e2 with e2
    injection e2 with _ e2
    exact ⟨e1, e2⟩
  refine ⟨hs.1, hs.2, left, ?_, g4 () hs.1⟩
  have : Rel F s.2 (view s.2.1 s.2.2, L ++ left) := g2
  rwa [hs.2] at this

/-- Every successful encryption into a new ciphertext leaks, whatever the keys, the input and the randomness: after the
ciphertext is destroyed there is more in memory than before, the buffer of zelement_bp.cpp:775-783 and 851-871 at least. When
the names of the ciphertext are different it is exactly that. -/
theorem C121_encrypt_leaks_violated {env : Env G1 G2 GT} {sch : Scheme} {c c' : Ctx G1 G2 GT} {mpkID : Bytes} {input : FInput}
    {plaintext : Bytes} {r : Rand q} {ct ct' : Ciphertext G1 G2 GT} (hct : ct.comps = [])
    (he : Scheme.encrypt env sch c mpkID input plaintext r ct = .ok (.ok ct', c')) (h : Heap G1 G2 GT) :
    ∃ mpk, (c.ks.getPublicKey mpkID).1 = some mpk ∧
      let s := encryptBody onHeap env c mpk sch input plaintext r (h, [])
      s.1 = .ok () ∧ (destroy s.2).1 = .ok () ∧ h.live.length < (destroy s.2).2.1.live.length ∧
        (((inputRows env r input).map (hashKey env.md)).Nodup → ((inputAttrs input).map (hashKey env.md)).Nodup →
          (destroy s.2).2.1.live.length = h.live.length + 1) := by
  have hr : Rel [] (h, []) (ct.comps, h.live) := by rw [hct]; exact rel_start h
  obtain ⟨mpk, h0, h1, _, left, h3, h4⟩ := C121_encrypt he hr (by rw [hct]; simp)
  refine ⟨mpk, h0, h1, (after_destroy h3).1, ?_, ?_⟩
  · have e := (after_destroy h3).2.length_eq
    rw [e]
    rw [hct, filter_empty] at h4
    have := (List.dedup_sublist (ctNames env.md sch input (inputRows env r input))).length_le
    simp only [List.map_nil, List.nil_append, List.length_append]
    omega
  · intro d1 d2
    have e := (after_destroy h3).2.length_eq
    rw [e]
    rw [hct, filter_empty, (ctNames_nodup d1 d2).dedup] at h4
    simp only [List.map_nil, List.nil_append, List.length_append]
    omega

/-- Encrypting for a policy into a ciphertext that an encryption has filled leaks all three components that every ciphertext
has, and the buffer, whatever the policies and the randomness. -/
theorem C121_reuse_violated {env : Env G1 G2 GT} {c c' : Ctx G1 G2 GT} {mpkID : Bytes} {p : Policy}
    {plaintext : Bytes} {r : Rand q} {ct ct' : Ciphertext G1 G2 GT} {F : List (Nat × Obj G1 G2 GT)} {h : Heap G1 G2 GT}
    {ps : Ptrs} {L : List (Cell G1 G2 GT)}
    (he : Scheme.encrypt env .cp c mpkID (.policy p) plaintext r ct = .ok (.ok ct', c'))
    (hr : Rel F (h, ps) (ct.comps, L)) (hn : ∀ e ∈ ct.comps, e.2 ≠ .null)
    (hf : ∀ n ∈ [b!"policy", b!"Cprime", b!"_ED"], (SMap.find n ct.comps).isSome) :
    ∃ mpk, (c.ks.getPublicKey mpkID).1 = some mpk ∧
      ∃ left, 4 ≤ left.length ∧ Rel F (encryptBody onHeap env c mpk .cp (.policy p) plaintext r (h, ps)).2
        (ct'.comps, L ++ left) := by
  obtain ⟨mpk, h0, _, _, left, h3, h4⟩ := C121_encrypt he hr hn
  refine ⟨mpk, h0, left, ?_, h3⟩
  have sub : ((ctNames env.md .cp (.policy p) (inputRows env r (.policy p))).dedup.filter
      fun n => (SMap.find n ct.comps).isNone).length ≤ (rowNames env.md b!"D" b!"C" (inputRows env r (.policy p))).length := by
    apply List.Subperm.length_le
    apply List.Nodup.subperm ((List.nodup_dedup _).filter _)
    intro n hm
    obtain ⟨h5, h6⟩ := List.mem_filter.mp hm
    rw [List.mem_dedup] at h5
    simp only [ctNames, List.cons_append, List.mem_cons, List.mem_append, List.not_mem_nil, or_false] at h5
    rcases h5 with rfl | rfl | h5 | rfl
    · have := hf b!"policy" (by simp); rw [Option.isNone_iff_eq_none] at h6; rw [h6] at this; cases this
    · have := hf b!"Cprime" (by simp); rw [Option.isNone_iff_eq_none] at h6; rw [h6] at this; cases this
    · exact h5
    · have := hf b!"_ED" (by simp); rw [Option.isNone_iff_eq_none] at h6; rw [h6] at this; cases this
  simp only [ctNames, List.cons_append, List.length_cons, List.length_append, List.length_nil] at h4 sub
  omega

end Schemes

/-! ### Examples -/
namespace MemEx
open CollEx

/-- Master keys with the components of both schemes. -/
def mpk : Key (ZMod 101) (ZMod 101) (ZMod 101) :=
  { comps := [(b!"A", .gt 6), (b!"Y", .gt 6), (b!"g1", .g1 2), (b!"g1a", .g1 4), (b!"g2", .g2 3), (b!"k", .bytes [7])] }

def msk : Key (ZMod 101) (ZMod 101) (ZMod 101) :=
  { comps := [(b!"alpha", .zp 5), (b!"g2a", .g2 9), (b!"y", .zp 5)] }

/-- `a and b`. -/
def pol : Policy :=
  { root := some (.gate {} .and 2 [.leaf {} [] b!"a" none, .leaf {} [] b!"b" none]), compact := b!"(a and b)" }

def ctx : Ctx (ZMod 101) (ZMod 101) (ZMod 101) := { alg := 101, ready := true, ks := { pub := [(b!"mpk", some mpk)] } }

/-- A heap with something in it. -/
def heap : Heap (ZMod 101) (ZMod 101) (ZMod 101) := ⟨[some (.buf [1]), none]⟩

variable (S : StdSort) (t : ZMod 101) (r : Rand 101)

/-- Keys for two attributes and for a repeated one, and a key for a policy. -/
example : (cpKeyBody onHeap (game S).env ctx mpk msk { attrs := [b!"a", b!"b"] } t (heap, [])).1 = .ok () ∧
    (([b!"a", b!"b"] : List Bytes).map (hashKey (game S).env.md)).Nodup :=
  ⟨rfl, by show ([b!"a", b!"b"] : List Bytes).Nodup; decide⟩
example : (cpKeyBody onHeap (game S).env ctx mpk msk { attrs := [b!"a", b!"a"] } t (heap, [])).1 = .ok () ∧
    ¬ ([b!"a", b!"a"] : List Bytes).Nodup := ⟨rfl, by decide⟩
example : (kpKeyBody onHeap (game S).env ctx mpk msk pol r.tape r.r (heap, [])).1 = .ok () ∧
    sharedNames (kpSharing (game S).env msk pol r.tape) = [b!"a", b!"b"] := ⟨rfl, rfl⟩

/-- Encryptions into a new ciphertext, and then into the same one. -/
example : ∃ ct1 ct2 c1 c2, Scheme.encrypt (game S).env .cp ctx b!"mpk" (.policy pol) b!"text" r {} = .ok (.ok ct1, c1) ∧
    Scheme.encrypt (game S).env .cp ctx b!"mpk" (.policy pol) b!"text" r ct1 = .ok (.ok ct2, c2) ∧
    (∀ n ∈ [b!"policy", b!"Cprime", b!"_ED"], (SMap.find n ct1.comps).isSome) := by
  refine ⟨_, _, _, _, rfl, rfl, ?_⟩
  intro n hn
  simp only [List.mem_cons, List.not_mem_nil, or_false] at hn
  rcases hn with rfl | rfl | rfl <;> rfl
example : ∃ ct1 c1, Scheme.encrypt (game S).env .kp ctx b!"mpk" (.attrs { attrs := [b!"a", b!"b"] }) b!"text" r {} =
    .ok (.ok ct1, c1) := ⟨_, _, rfl⟩

end MemEx

end Mem
end Abe
