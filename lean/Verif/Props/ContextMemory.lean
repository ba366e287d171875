import Verif.Proof.ContextMemoryHistory
import Verif.Props.Typed
/-!
# The memory of a context (C123)

Every list of calls on a context, with any number of keys and ciphertexts, any arguments and any loaded bytes, on the heap
(`Cm.onWorld`): keys are held by shared pointers in the keystore, all components are behind pointers. `Cm.history` are the same
calls on values.
-/
set_option linter.unusedSimpArgs false
set_option linter.unusedSectionVars false
set_option autoImplicit false
namespace Abe
open Scheme Cm
open Mem (WRel)

variable {G1 G2 GT : Type} {q : Nat} [Fact q.Prime]
variable [AddCommGroup G1] [Module (ZMod q) G1] [AddCommGroup G2] [Module (ZMod q) G2] [AddCommGroup GT]
  [Module (ZMod q) GT]

theorem both_start (alg : UInt8) : Both HeapRel (({}, { alg := alg }) : Mem.World G1 G2 GT × Held G1 G2 GT) (([], []), { alg := alg }) :=
  ⟨Mem.wrel_empty, rfl⟩

theorem inv_start (n : Nat) (alg : UInt8) : Inv n [] [] ({ alg := alg } : Held G1 G2 GT) where
  nodup := by simp [held, owners, keyConts]
  here i := by simp [held, owners, keyConts, Mem.at_]
  top _ _ := rfl
  order := ⟨trivial, trivial⟩

theorem values_start (alg : UInt8) (f : Nat → Container G1 G2 GT) :
    asValues f ({ alg := alg } : Held G1 G2 GT) = ⟨{ alg := alg }, fun _ => {}⟩ := rfl

/-- The state after the calls, on the heap and in the books. -/
theorem history_book (env : Env G1 G2 GT) (cd : Codec G1 G2 GT) (sch : Scheme) (alg : UInt8) (n : Nat) (cs : List (Live.Call q G1 G2))
    (hn : ∀ c ∈ cs, Cm.below n c) :
    (run (onWorld cd) env cd sch ({}, { alg := alg }) cs).1 = (history env cd sch ⟨{ alg := alg }, fun _ => {}⟩ cs).1 ∧
    ((∀ r ∈ (run (onWorld cd) env cd sch ({}, { alg := alg }) cs).1, r.Defined) →
      ∃ v D, WRel (run (onWorld cd) env cd sch ({}, { alg := alg }) cs).2.1 v D ∧
        Inv n [] v (run (onWorld cd) env cd sch ({}, { alg := alg }) cs).2.2 ∧
        asValues (vals v) (run (onWorld cd) env cd sch ({}, { alg := alg }) cs).2.2 =
          (history env cd sch ⟨{ alg := alg }, fun _ => {}⟩ cs).2 ∧
        ((∀ c ∈ cs, distinct env c) → D.length = leftBy env cd sch ⟨{ alg := alg }, fun _ => {}⟩ cs) ∧
        (run (onWorld cd) env cd sch ({}, { alg := alg }) cs).1.countP isPlain ≤ D.length) := by
  have hs := sim_run (env := env) (cd := cd) (sch := sch) (same_heap cd) cs _ _ (both_start (G1 := G1) (G2 := G2) (GT := GT) alg)
  have hb := run_book (env := env) (cd := cd) (sch := sch) cs n [] _ [] (inv_start (G1 := G1) (G2 := G2) (GT := GT) n alg) hn
  rw [values_start] at hb
  generalize run (onWorld cd) env cd sch ({}, { alg := alg }) cs = s at hs ⊢
  generalize run (onBook cd) env cd sch (([], []), { alg := alg }) cs = t at hs hb
  obtain ⟨e, r, er⟩ := hs
  refine ⟨e.trans hb.1, fun hd => ?_⟩
  rw [e] at hd ⊢
  rw [er]
  obtain ⟨h1, h2, D, h3, h4, h5⟩ := hb.2 hd
  refine ⟨t.2.1.1, D, ?_, h1, h2, h4, h5⟩
  have h3 : t.2.1.2 = D := h3.trans (List.nil_append _)
  rw [← h3]
  exact r

/-- **C123** Every call of every history gives exactly what it gives on values: memory is never misused except where the calls
are undefined anyway. When all calls returned or raised, the keys and ciphertexts in memory are those of the values; the memory
holds their objects, each exactly once, and what was left behind; and the destructors of the keystore and of the ciphertexts
run without a double release or a dangling pointer and release all of it except what was left behind. When the names of the
components that each call makes are different, the number of objects left behind is the sum of `Cm.left`: one buffer for every session key
that is derived, one for every group element that is exported and one object for every repeated name in loaded bytes. Key
generation, deletion, replacement of a key and refused calls leave nothing behind. -/
theorem C123_history (env : Env G1 G2 GT) (cd : Codec G1 G2 GT) (sch : Scheme) (alg : UInt8) (n : Nat) (cs : List (Live.Call q G1 G2))
    (hn : ∀ c ∈ cs, Cm.below n c) :
    (run (onWorld cd) env cd sch ({}, { alg := alg }) cs).1 = (history env cd sch ⟨{ alg := alg }, fun _ => {}⟩ cs).1 ∧
    ((∀ r ∈ (history env cd sch ⟨{ alg := alg }, fun _ => {}⟩ cs).1, r.Defined) →
      seen (run (onWorld cd) env cd sch ({}, { alg := alg }) cs).2 = (history env cd sch ⟨{ alg := alg }, fun _ => {}⟩ cs).2 ∧
      ∃ L, (run (onWorld cd) env cd sch ({}, { alg := alg }) cs).2.1.heap.live.Perm
          (cells n (history env cd sch ⟨{ alg := alg }, fun _ => {}⟩ cs).2 ++ L) ∧
        (close (onWorld cd) n (run (onWorld cd) env cd sch ({}, { alg := alg }) cs).2).1 = .ok () ∧
        (close (onWorld cd) n (run (onWorld cd) env cd sch ({}, { alg := alg }) cs).2).2.1.heap.live.Perm L ∧
        ((∀ c ∈ cs, distinct env c) → L.length = leftBy env cd sch ⟨{ alg := alg }, fun _ => {}⟩ cs)) := by
  obtain ⟨e, h⟩ := history_book env cd sch alg n cs hn
  refine ⟨e, fun hd => ?_⟩
  rw [← e] at hd
  obtain ⟨v, D, hw, hi, ha, hl, -⟩ := h hd
  generalize run (onWorld cd) env cd sch ({}, { alg := alg }) cs = s at hw hi ha ⊢
  refine ⟨(seen_eq hw).trans ha, D, ?_, ?_⟩
  · rw [← ha]
    exact hw.live.trans (hi.cells.append_right D)
  · obtain ⟨v', ec, ho⟩ := close_run cd hi D
    obtain ⟨e1, r1, -⟩ := sim_close (same_heap cd) n s.2 ((v, D), s.2.2) ⟨hw, rfl⟩
    rw [ec] at e1 r1
    refine ⟨e1, ?_, hl⟩
    have := r1.live
    simpa only [ho, List.nil_append] using this

/-- **C123** Decryption leaks: every plaintext that was returned has left something behind that the program can never release,
so a process that goes on decrypting goes on growing. This holds for every history, whatever the names of the components. -/
theorem C123_decrypt_leaks_violated (env : Env G1 G2 GT) (cd : Codec G1 G2 GT) (sch : Scheme) (alg : UInt8) (n : Nat)
    (cs : List (Live.Call q G1 G2)) (hn : ∀ c ∈ cs, Cm.below n c)
    (hd : ∀ r ∈ (history env cd sch ⟨{ alg := alg }, fun _ => {}⟩ cs).1, r.Defined) :
    (close (onWorld cd) n (run (onWorld cd) env cd sch ({}, { alg := alg }) cs).2).1 = .ok () ∧
    (history env cd sch ⟨{ alg := alg }, fun _ => {}⟩ cs).1.countP isPlain ≤
      (close (onWorld cd) n (run (onWorld cd) env cd sch ({}, { alg := alg }) cs).2).2.1.heap.live.length := by
  obtain ⟨e, h⟩ := history_book env cd sch alg n cs hn
  rw [← e] at hd ⊢
  obtain ⟨v, D, hw, hi, ha, hl, hp⟩ := h hd
  generalize run (onWorld cd) env cd sch ({}, { alg := alg }) cs = s at hw hi ha hp ⊢
  obtain ⟨v', ec, ho⟩ := close_run cd hi D
  obtain ⟨e1, r1, -⟩ := sim_close (same_heap cd) n s.2 ((v, D), s.2.2) ⟨hw, rfl⟩
  rw [ec] at e1 r1
  refine ⟨e1, ?_⟩
  have := r1.live
  simp only [ho, List.nil_append] at this
  rw [this.length_eq]
  exact hp

theorem join_mem {α : Type} {l : List (Option α)} {i : Nat} {x : α} (h : (l[i]?).join = some x) : some x ∈ l := by
  cases hi : l[i]? with
  | none => rw [hi] at h; cases h
  | some y =>
    rw [hi] at h
    simp only [Option.join_some] at h
    subst h
    exact List.mem_of_getElem? hi

theorem delete_code {ks : KeyStore (HKey G1 G2 GT)} {id : Bytes} {k : HKey G1 G2 GT} (h : pointer id ks.pub = some k) :
    (ks.deleteKey id).1 = none := by
  have hf := pointer_find h
  unfold KeyStore.deleteKey KeyStore.getKey KeyStore.getPublicKey KeyStore.touch
  simp [hf]

/-- **C123** `getHashKey` hands out a pointer into a key of the keystore (zcontextabe.cpp:141-150). After every history it can be
followed, but after a successful `deleteKey` of the public key following it is a use after free. -/
theorem C123_hash_key_violated (env : Env G1 G2 GT) (cd : Codec G1 G2 GT) (sch : Scheme) (alg : UInt8) (n : Nat)
    (cs : List (Live.Call q G1 G2)) (hn : ∀ c ∈ cs, Cm.below n c)
    (hd : ∀ r ∈ (history env cd sch ⟨{ alg := alg }, fun _ => {}⟩ cs).1, r.Defined) (mpkID : Bytes) (a : Nat)
    (hp : hashPointer (run (onWorld cd) env cd sch ({}, { alg := alg }) cs).2.1
      (run (onWorld cd) env cd sch ({}, { alg := alg }) cs).2.2.ks mpkID = some a) :
    (∃ o, (run (onWorld cd) env cd sch ({}, { alg := alg }) cs).2.1.heap.load (some a) = .ok o) ∧
    ∃ s', deleteKey (onWorld cd) mpkID (run (onWorld cd) env cd sch ({}, { alg := alg }) cs).2 = (.ok none, s') ∧
      s'.1.heap.load (some a) = .ub := by
  obtain ⟨e, h⟩ := history_book env cd sch alg n cs hn
  rw [← e] at hd
  obtain ⟨v, D, hw, hi, ha, -, -⟩ := h hd
  generalize run (onWorld cd) env cd sch ({}, { alg := alg }) cs = s at hw hi ha hp ⊢
  unfold hashPointer at hp
  cases hk : pointer mpkID s.2.2.ks.pub with
  | none => rw [hk] at hp; cases hp
  | some k =>
    rw [hk] at hp
    simp only at hp
    cases hc : (s.2.1.conts[k.cont]?).join with
    | none => rw [hc] at hp; cases hp
    | some d =>
      rw [hc] at hp
      simp only at hp
      have hm : (b!"k", some a) ∈ d := by
        cases hf : SMap.find b!"k" d with
        | none => rw [hf] at hp; cases hp
        | some x =>
          rw [hf] at hp
          simp only [Option.join_some] at hp
          subst hp
          exact SMap.mem_of_find hf
      refine ⟨?_, ?_⟩
      · obtain ⟨o, -, ho⟩ := hw.here a (List.mem_flatMap.mpr ⟨some d, join_mem hc, List.mem_filterMap.mpr ⟨_, hm, rfl⟩⟩)
        exact ⟨o, by simp only [Mem.Heap.load, ho]⟩
      · obtain ⟨v', ed, hi', -⟩ := deleteKey_run cd mpkID hi D
        obtain ⟨e1, -⟩ := sim_deleteKey (same_heap cd) mpkID s.2 ((v, D), s.2.2) ⟨hw, rfl⟩
        rw [ed] at e1
        rcases hx : deleteKey (onWorld cd) mpkID s.2 with ⟨x, s'⟩
        rw [hx] at e1
        simp only at e1
        subst e1
        refine ⟨s', by rw [delete_code hk], ?_⟩
        have hno : k.cont ∉ owners (s.2.2.ks.deleteKey mpkID).2 := by
          have hno := (owners_del hi.order mpkID).nodup_iff.mpr (List.nodup_append.mp (List.nodup_append.mp hi.nodup).2.1).1
          rw [hk] at hno
          exact fun hm => (List.nodup_cons.mp hno).1 (List.mem_append_right (contOf (pointer mpkID s.2.2.ks.sec)) hm)
        have := delete_get cd hx hk hno hc ⟨_, hm⟩
        simp only [Mem.Heap.load, this]

/-! ## Histories without undefined calls -/

theorem history_defined (env : Env G1 G2 GT) (cd : Codec G1 G2 GT) (sch : Scheme) : ∀ (cs : List (Live.Call q G1 G2)) (w : Live.World G1 G2 GT),
    (∀ l c l', cs = l ++ c :: l' → (Live.step env cd sch (Live.run env cd sch w l) c).1.Defined) →
    ∀ r ∈ (history env cd sch w cs).1, r.Defined
  | [], _, _ => fun _ h => absurd h (by simp [history])
  | c :: cs, w, h => by
    have h0 : (Live.step env cd sch w c).1.Defined := h [] c cs rfl
    have ih := history_defined env cd sch cs (Live.step env cd sch w c).2 fun l c' l' e => h (c :: l) c' l' (by rw [e]; rfl)
    unfold history
    rcases hs : Live.step env cd sch w c with ⟨x, w'⟩
    rw [hs] at h0 ih
    simp only at h0 ih
    cases x with
    | ok a =>
      intro r hr
      rcases List.mem_cons.mp hr with rfl | hr
      · trivial
      · exact ih r hr
    | throw e =>
      intro r hr
      rcases List.mem_cons.mp hr with rfl | hr
      · trivial
      · exact ih r hr
    | ub => exact h0.elim
    | abort => exact h0.elim

/-- **C123 (partial)** A context that is used with policies from the parser, and with keys and ciphertexts whose components have the right
types, never makes a memory error: all calls return or raise, whatever fails in between, the destructors run, and what remains
in memory is only what was left behind. Missing: policies made in other ways, hostile bytes, exports of objects with a null
entry, and builds without assertions (C118). -/
theorem C123_careful_partial {env : Env G1 G2 GT} {cd : Codec G1 G2 GT} {sch : Scheme} (hnd : env.ndebug = false)
    (hmd : ∀ x, (env.md x).length = 32) (alg : UInt8) (n : Nat) (cs : List (Live.Call q G1 G2)) (hn : ∀ c ∈ cs, Cm.below n c)
    (hcs : ∀ c ∈ cs, Live.Careful env cd sch c)
    (hx : ∀ l c l', cs = l ++ c :: l' → ¬ Live.WritesNull (Live.run env cd sch ⟨{ alg := alg }, fun _ => {}⟩ l) c) :
    (∀ r ∈ (run (onWorld cd) env cd sch ({}, { alg := alg }) cs).1, r.Defined) ∧
    ∃ L, (close (onWorld cd) n (run (onWorld cd) env cd sch ({}, { alg := alg }) cs).2).1 = .ok () ∧
      (close (onWorld cd) n (run (onWorld cd) env cd sch ({}, { alg := alg }) cs).2).2.1.heap.live.Perm L ∧
      ((∀ c ∈ cs, distinct env c) → L.length = leftBy env cd sch ⟨{ alg := alg }, fun _ => {}⟩ cs) := by
  obtain ⟨e, h⟩ := C123_history env cd sch alg n cs hn
  have hd := history_defined env cd sch cs ⟨{ alg := alg }, fun _ => {}⟩ fun l c l' el =>
    C118_histories_defined_partial hnd hmd alg false l (fun c' hc' => hcs c' (by rw [el]; simp [hc'])) c (hcs c (by rw [el]; simp))
      (hx l c l' el)
  obtain ⟨-, L, -, h2, h3, h4⟩ := h hd
  exact ⟨by rw [e]; exact hd, L, h2, h3, h4⟩

/-! ### Examples -/
namespace CmEx
open Cpa.WireEx LiveEx TypedEx

/-- The history with refused calls, a key, a ciphertext and a decryption satisfies the hypotheses. -/
theorem ex_below : ∀ c ∈ TypedEx.history, Cm.below 1 c := by
  intro c hc
  simp only [TypedEx.history, List.mem_cons, List.not_mem_nil, or_false] at hc
  rcases hc with rfl | rfl | rfl | rfl | rfl | rfl <;> first | exact Nat.one_pos | trivial

theorem ex_nulls (w : Live.World (ZMod 5) (ZMod 5) (ZMod 5)) : ∀ l c l', TypedEx.history = l ++ c :: l' →
    ¬ Live.WritesNull (Live.run (q := 5) env codec .cp w l) c := by
  intro l c l' e
  have hc : c ∈ TypedEx.history := by rw [e]; simp
  simp only [TypedEx.history, List.mem_cons, List.not_mem_nil, or_false] at hc
  rcases hc with rfl | rfl | rfl | rfl | rfl | rfl <;> exact fun h => h

example : ∀ r ∈ (Cm.run (onWorld codec) env codec .cp ({}, { alg := 101 }) TypedEx.history).1, r.Defined :=
  (C123_careful_partial (q := 5) rfl (fun x => Toy.digest _ _ x) 101 1 _ ex_below TypedEx.careful (ex_nulls _)).1

/-- A history whose calls are all computed: a parameter set, a key, a ciphertext that it decrypts, and two decryptions. -/
def prog : List (Live.Call 5 (ZMod 5) (ZMod 5)) :=
  [.params b!"mpk" b!"msk" pr, .keygen (.attrs { attrs := [b!"a"] }) b!"dk" b!"mpk" b!"msk" rnd,
   .encrypt 0 b!"mpk" (.policy { root := some (.leaf {} [] b!"a" none), compact := b!"a" }) b!"hello" rnd, .decrypt b!"dk" 0, .decrypt b!"dk" 0,
   .exportKey b!"dk", .deleteKey b!"dk", .decrypt b!"dk" 0]

theorem prog_below : ∀ c ∈ prog, Cm.below 1 c := by
  intro c hc
  simp only [prog, List.mem_cons, List.not_mem_nil, or_false] at hc
  rcases hc with rfl | rfl | rfl | rfl | rfl | rfl | rfl | rfl <;> first | exact Nat.one_pos | trivial

/-- The call returned or raised. -/
def isDefined {α : Type} : Res α → Bool
  | .ok _ => true
  | .throw _ => true
  | _ => false

theorem prog_answers : (Cm.history env codec .cp ⟨{ alg := 101 }, fun _ => {}⟩ prog).1.map (fun r => (isDefined r, isPlain r)) =
    [(true, false), (true, false), (true, false), (true, true), (true, true), (true, false), (true, false), (true, false)] := by
  decide +kernel

theorem prog_defined : ∀ r ∈ (Cm.history env codec .cp ⟨{ alg := 101 }, fun _ => {}⟩ prog).1, r.Defined := by
  intro r hr
  have h := List.mem_map_of_mem (f := fun r => (isDefined r, isPlain r)) hr
  rw [prog_answers] at h
  have : isDefined r = true := by
    simp only [List.mem_cons, Prod.mk.injEq, List.not_mem_nil, or_false] at h
    rcases h with h | h | h | h | h | h | h | h <;> exact h.1
  cases r with
  | ok a => trivial
  | throw e => trivial
  | ub => cases this
  | abort => cases this

theorem prog_distinct : ∀ c ∈ prog, distinct env c := by
  intro c hc
  simp only [prog, List.mem_cons, List.not_mem_nil, or_false] at hc
  rcases hc with rfl | rfl | rfl | rfl | rfl | rfl | rfl | rfl
  all_goals trivial

/-- It leaves six objects behind: three session keys and the three group elements of the exported key. -/
example : ∃ L, (close (onWorld codec) 1 (Cm.run (onWorld codec) env codec .cp ({}, { alg := 101 }) prog).2).1 = .ok () ∧
    (close (onWorld codec) 1 (Cm.run (onWorld codec) env codec .cp ({}, { alg := 101 }) prog).2).2.1.heap.live.Perm L ∧
    L.length = 6 := by
  obtain ⟨-, L, -, h2, h3, h4⟩ := (C123_history (q := 5) env codec .cp 101 1 prog prog_below).2 prog_defined
  refine ⟨L, h2, h3, (h4 prog_distinct).trans ?_⟩
  decide +kernel

/-- Two of them by the two plaintexts. -/
example : 2 ≤ (close (onWorld codec) 1 (Cm.run (onWorld codec) env codec .cp ({}, { alg := 101 }) prog).2).2.1.heap.live.length := by
  have h := (C123_decrypt_leaks_violated (q := 5) env codec .cp 101 1 prog prog_below prog_defined).2
  have e : (Cm.history env codec .cp ⟨{ alg := 101 }, fun _ => {}⟩ prog).1.countP isPlain = 2 := by decide +kernel
  rwa [e] at h

/-- The pointer of `getHashKey`, and what it is after the key was deleted. -/
example : ∃ a s', hashPointer (Cm.run (onWorld codec) env codec .cp ({}, { alg := 101 }) prog).2.1
      (Cm.run (onWorld codec) env codec .cp ({}, { alg := 101 }) prog).2.2.ks b!"mpk" = some a ∧
    deleteKey (onWorld codec) b!"mpk" (Cm.run (onWorld codec) env codec .cp ({}, { alg := 101 }) prog).2 = (.ok none, s') ∧
    s'.1.heap.load (some a) = .ub := by
  have hp : hashPointer (Cm.run (onWorld codec) env codec .cp ({}, { alg := 101 }) prog).2.1
      (Cm.run (onWorld codec) env codec .cp ({}, { alg := 101 }) prog).2.2.ks b!"mpk" = some 4 := by decide +kernel
  obtain ⟨-, s', h1, h2⟩ := C123_hash_key_violated (q := 5) env codec .cp 101 1 prog prog_below prog_defined b!"mpk" 4 hp
  exact ⟨4, s', hp, h1, h2⟩

end CmEx
end Abe
