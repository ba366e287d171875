import Verif.Proof.Container
import Verif.Spec.ContainerUse
import Verif.Props.Container
/-!
# What a container answers after any calls (C153)
-/
set_option linter.unusedSimpArgs false
set_option linter.unusedSectionVars false
set_option autoImplicit false
namespace Abe
namespace ContUse
open Container

variable {G1 G2 GT : Type} {cd : Codec G1 G2 GT}

/-- The slot that an entry of the container stands for. -/
def slotOf : Option (Obj G1 G2 GT) → Slot G1 G2 GT
  | none => .absent
  | some .null => .empty
  | some o => .holds o

/-- The container agrees with the slots. -/
structure Agrees (c : Container G1 G2 GT) (f : Bytes → Slot G1 G2 GT) : Prop where
  sorted : SMap.Sorted c
  slot : ∀ n, slotOf (SMap.find n c) = f n
  plain : ∀ n p, SMap.find n c ≠ some (.policy p)

theorem agrees_get {c : Container G1 G2 GT} {f : Bytes → Slot G1 G2 GT} (h : Agrees c f) (m : Bytes) :
    Agrees (getComponent c m).2 (fun n => if m = n then (match f n with | .absent => .empty | s => s) else f n) := by
  obtain ⟨hs, hf, hp⟩ := h
  unfold getComponent
  have hm := hf m
  split
  · rename_i e
    refine ⟨SMap.sorted_insert hs, fun n => ?_, fun n p => ?_⟩
    · rw [SMap.find_insert]
      by_cases hn : n = m
      · subst hn
        rw [e] at hm
        simp only [slotOf] at hm
        simp [← hm, slotOf]
      · rw [if_neg hn, if_neg (fun e => hn e.symm), hf]
    · rw [SMap.find_insert]
      split
      · simp
      · exact hp n p
  · rename_i e
    refine ⟨hs, fun n => ?_, hp⟩
    by_cases hn : m = n
    · subst hn
      rw [e] at hm
      simp only [slotOf] at hm
      simp [← hm, slotOf, e]
    · rw [if_neg hn, hf]
  · rename_i o e1 e
    refine ⟨hs, fun n => ?_, hp⟩
    by_cases hn : m = n
    · subst hn
      rw [if_pos rfl, hf]
      have : f m = .holds o := by
        rw [← hm, e]
        cases o <;> first | rfl | exact absurd rfl e1
      rw [this]
    · rw [if_neg hn, hf]

theorem agrees_step {c : Container G1 G2 GT} {f : Bytes → Slot G1 G2 GT} (h : Agrees c f) (call : Call G1 G2 GT) :
    Agrees (step cd c call).2 (fun n => Slot.next n (f n) call) := by
  cases call with
  | set m o =>
    obtain ⟨hs, hf, hp⟩ := h
    have key : ∀ o' : Obj G1 G2 GT, (∀ p, o' ≠ .policy p) →
        Agrees (SMap.insert m o' c) (fun n => if m = n then slotOf (some o') else f n) := by
      intro o' ho
      refine ⟨SMap.sorted_insert hs, fun n => ?_, fun n p => ?_⟩
      · rw [SMap.find_insert]
        by_cases hn : n = m
        · subst hn; simp
        · rw [if_neg hn, if_neg (fun e => hn e.symm), hf]
      · rw [SMap.find_insert]
        split
        · intro e; exact ho p (Option.some.inj e)
        · exact hp n p
    cases o with
    | null =>
      simp only [step, setComponent, Obj.clone, Res.ub_bind, Slot.next, Slot.stored, ite_self]
      exact ⟨hs, hf, hp⟩
    | policy P => exact key .null (fun p => by simp)
    | int n => exact key (.int n) (fun p => by simp)
    | zp n => exact key (.zp n) (fun p => by simp)
    | g1 n => exact key (.g1 n) (fun p => by simp)
    | g2 n => exact key (.g2 n) (fun p => by simp)
    | gt n => exact key (.gt n) (fun p => by simp)
    | bytes n => exact key (.bytes n) (fun p => by simp)
    | attrs n => exact key (.attrs n) (fun p => by simp)
  | get m => exact agrees_get h m
  | getAs k m => exact agrees_get h m
  | delete m =>
    obtain ⟨hs, hf, hp⟩ := h
    simp only [step, deleteComponent, Slot.next]
    split
    · refine ⟨SMap.sorted_erase hs, fun n => ?_, fun n p => ?_⟩
      · rw [SMap.find_erase]
        by_cases hn : n = m
        · subst hn; simp [slotOf]
        · rw [if_neg hn, if_neg (fun e => hn e.symm), hf]
      · rw [SMap.find_erase]
        split
        · simp
        · exact hp n p
    · rename_i e
      refine ⟨hs, fun n => ?_, hp⟩
      by_cases hn : m = n
      · subst hn
        rw [if_pos rfl]
        cases e' : SMap.find m c with
        | none => rfl
        | some o => rw [e'] at e; exact absurd rfl e
      · rw [if_neg hn, hf]
  | names => exact h
  | count => exact h
  | write => exact h

theorem agrees_after (cs : List (Call G1 G2 GT)) : Agrees (after cd cs) (fun n => Slot.of n cs) := by
  suffices H : ∀ (cs : List (Call G1 G2 GT)) (c : Container G1 G2 GT) (f : Bytes → Slot G1 G2 GT), Agrees c f →
      Agrees (cs.foldl (fun c call => (step cd c call).2) c) (fun n => cs.foldl (Slot.next n) (f n)) from
    H cs [] (fun _ => .absent) ⟨trivial, fun _ => rfl, fun _ _ => by simp⟩
  intro cs
  induction cs with
  | nil => intro c f h; exact h
  | cons call cs ih => intro c f h; exact ih _ _ (agrees_step h call)

theorem keys_pairwise : ∀ {c : Container G1 G2 GT}, SMap.Sorted c → (SMap.keys c).Pairwise (fun a b => blt a b = true)
  | [], _ => List.Pairwise.nil
  | (k, o) :: c, h => by
    refine List.Pairwise.cons ?_ (keys_pairwise h.2)
    intro b hb
    obtain ⟨p, hp, rfl⟩ := List.mem_map.mp hb
    exact h.1 p hp

theorem keys_slot {c : Container G1 G2 GT} {f : Bytes → Slot G1 G2 GT} (h : Agrees c f) (n : Bytes) :
    n ∈ SMap.keys c ↔ f n ≠ .absent := by
  rw [← h.slot n]
  constructor
  · intro hn
    obtain ⟨p, hp, rfl⟩ := List.mem_map.mp hn
    rw [SMap.find_of_mem h.sorted (show (p.1, p.2) ∈ c from hp)]
    cases p.2 <;> simp [slotOf]
  · intro hn
    cases e : SMap.find n c with
    | none => rw [e] at hn; exact absurd rfl hn
    | some o => exact List.mem_map.mpr ⟨_, SMap.mem_of_find e, rfl⟩

/-- **C153.** What a container answers, after any calls on a new one: everything follows from the calls that mention each name. -/
theorem C153_answers (cs : List (Call G1 G2 GT)) :
    (∀ n, (step cd (after cd cs) (.set n .null)).1 = .ub ∧ ∀ o, o ≠ .null → (step cd (after cd cs) (.set n o)).1 = .ok .done) ∧
    (∀ n o, Slot.of n cs = .holds o → (step cd (after cd cs) (.get n)).1 = .ok (.object o)) ∧
    (∀ n, (∀ o, Slot.of n cs ≠ .holds o) → (step cd (after cd cs) (.get n)).1 = .throw .elementNotFound) ∧
    (∀ n, (Slot.of n cs ≠ .absent → (step cd (after cd cs) (.delete n)).1 = .ok (.deleted true)) ∧
      (Slot.of n cs = .absent → (step cd (after cd cs) (.delete n)).1 = .ok (.deleted false))) ∧
    ∃ l : List Bytes, l.Pairwise (fun a b => blt a b = true) ∧ (∀ n, n ∈ l ↔ Slot.of n cs ≠ .absent) ∧
      (step cd (after cd cs) .names).1 = .ok (.names l) ∧ (step cd (after cd cs) .count).1 = .ok (.count (UInt32.ofNat l.length)) := by
  have h := agrees_after (cd := cd) cs
  generalize after cd cs = c at h
  refine ⟨?_, ?_, ?_, ?_, ?_⟩
  · intro n
    refine ⟨rfl, fun o ho => ?_⟩
    cases o <;> first | exact absurd rfl ho | rfl
  · intro n o ho
    have := h.slot n
    simp only [ho] at this
    simp only [step, getComponent]
    split
    · rename_i e; rw [e] at this; cases this
    · rename_i e; rw [e] at this; cases this
    · rename_i o' hn e
      rw [e] at this
      have e2 : o' = o := by
        cases o' <;> first | exact absurd rfl hn | exact Slot.holds.inj this
      rw [e2]; rfl
  · intro n ho
    have := h.slot n
    simp only [step, getComponent]
    split
    · rfl
    · rfl
    · rename_i o' hn e
      rw [e] at this
      exfalso
      refine ho o' ?_
      rw [← this]
      cases o' <;> first | exact absurd rfl hn | rfl
  · intro n
    have := h.slot n
    constructor
    · intro hn
      simp only [step, deleteComponent]
      split
      · rfl
      · rename_i e
        cases e' : SMap.find n c with
        | none => rw [e'] at this; exact absurd this.symm hn
        | some o => rw [e'] at e; exact absurd rfl e
    · intro hn
      simp only [step, deleteComponent]
      split
      · rename_i e
        cases e' : SMap.find n c with
        | none => rw [e'] at e; cases e
        | some o =>
          rw [e', hn] at this
          cases o <;> cases this
      · rfl
  · refine ⟨SMap.keys c, keys_pairwise h.sorted, keys_slot h, rfl, ?_⟩
    simp [step, numComponents, SMap.keys]

/-- **C153 (typed getters).** A typed getter fails exactly like the untyped one; otherwise it returns the object if it has the type
asked for, and the null pointer if not. -/
theorem C153_typed (cs : List (Call G1 G2 GT)) (k : Kind) (n : Bytes) :
    (∀ o, Slot.of n cs = .holds o → Slot.HasKind k o → (step cd (after cd cs) (.getAs k n)).1 = .ok (.pointer (some o))) ∧
    (∀ o, Slot.of n cs = .holds o → ¬ Slot.HasKind k o → (step cd (after cd cs) (.getAs k n)).1 = .ok (.pointer none)) ∧
    ((∀ o, Slot.of n cs ≠ .holds o) → (step cd (after cd cs) (.getAs k n)).1 = .throw .elementNotFound) := by
  obtain ⟨-, h1, h2, -, -⟩ := C153_answers (cd := cd) cs
  have conv : ∀ o, (step cd (after cd cs) (.get n)).1 = .ok (.object o) →
      (step cd (after cd cs) (.getAs k n)).1 = .ok (.pointer (cast k o)) := by
    intro o h
    simp only [step] at h ⊢
    cases e : (getComponent (after cd cs) n).1 with
    | ok o' => rw [e] at h; simp only [Res.ok_bind, Res.ok.injEq, Answer.object.injEq] at h ⊢; rw [h]
    | throw _ => rw [e] at h; cases h
    | ub => rw [e] at h; cases h
    | abort => rw [e] at h; cases h
  refine ⟨fun o ho hk => ?_, fun o ho hk => ?_, fun ho => ?_⟩
  · rw [conv o (h1 n o ho)]
    cases hk <;> rfl
  · rw [conv o (h1 n o ho)]
    have : cast k o = none := by
      cases k <;> cases o <;> first | rfl | exact absurd (by constructor) hk
    rw [this]
  · have := h2 n ho
    simp only [step] at this ⊢
    cases e : (getComponent (after cd cs) n).1 with
    | ok o' => rw [e] at this; cases this
    | throw x => rw [e] at this; simpa using this
    | ub => rw [e] at this; cases this
    | abort => rw [e] at this; cases this

theorem serialize_ok (o : Obj G1 G2 GT) (hn : o ≠ .null) : ∃ b, o.serialize cd = .ok b := by
  cases o <;> first | exact absurd rfl hn | exact ⟨_, rfl⟩

theorem write_ok : ∀ (c : Container G1 G2 GT), (∀ p ∈ c, p.2 ≠ .null) →
    ∃ f : List Bytes, f.length = c.length ∧ (∀ i (hi : i < c.length) (hf : i < f.length), (c[i]).2.serialize cd = .ok f[i]) ∧
      Container.serialize cd c = .ok ((c.zip f).flatMap fun x => BS.smartPack (BS.smartPack [] x.1.1) x.2)
  | [], _ => ⟨[], rfl, fun i hi => absurd hi (by simp), rfl⟩
  | (k, o) :: c, h => by
    obtain ⟨b, hb⟩ := serialize_ok (cd := cd) o (h (k, o) (List.mem_cons_self ..))
    obtain ⟨f, h1, h2, h3⟩ := write_ok c (fun p hp => h p (List.mem_cons_of_mem _ hp))
    refine ⟨b :: f, by simp [h1], ?_, ?_⟩
    · intro i hi hf
      cases i with
      | zero => exact hb
      | succ i => exact h2 i (by simpa using hi) (by simpa using hf)
    · simp only [Container.serialize, hb, h3, Res.ok_bind, List.zip_cons_cons, List.flatMap_cons]

theorem write_ub : ∀ (c : Container G1 G2 GT) (p : Bytes × Obj G1 G2 GT), p ∈ c → p.2 = .null → Container.serialize cd c = .ub
  | (k, o) :: c, p, hp, hn => by
    by_cases ho : o = .null
    · subst ho; rfl
    · obtain ⟨b, hb⟩ := serialize_ok (cd := cd) o ho
      rcases List.mem_cons.mp hp with rfl | hp
      · exact absurd hn ho
      · simp only [Container.serialize, hb, Res.ok_bind, write_ub c p hp hn, Res.ub_bind]

/-- **C153 (writing).** After any calls on a new container, writing it is undefined exactly if some name has an entry without an object;
otherwise it gives the names and the bytes of their objects, in the order of the names. -/
theorem C153_write (cs : List (Call G1 G2 GT)) :
    ((step cd (after cd cs) .write).1 = .ub ↔ ∃ n, Slot.of n cs = .empty) ∧
    ((∀ n, Slot.of n cs ≠ .empty) → ∃ l : List (Bytes × Bytes), (l.map (·.1)).Pairwise (fun a b => blt a b = true) ∧
      (∀ n, n ∈ l.map (·.1) ↔ Slot.of n cs ≠ .absent) ∧
      (∀ x ∈ l, ∃ o, Slot.of x.1 cs = .holds o ∧ o.serialize cd = .ok x.2) ∧
      (step cd (after cd cs) .write).1 = .ok (.bytes (l.flatMap fun x => BS.smartPack (BS.smartPack [] x.1) x.2))) := by
  have h := agrees_after (cd := cd) cs
  generalize after cd cs = c at h
  have hnull : (∀ n, Slot.of n cs ≠ .empty) → ∀ p ∈ c, p.2 ≠ .null := by
    intro hn p hp e
    refine hn p.1 ?_
    have := h.slot p.1
    rw [SMap.find_of_mem h.sorted (show (p.1, p.2) ∈ c from hp), e] at this
    exact this.symm
  have second : (∀ n, Slot.of n cs ≠ .empty) → ∃ l : List (Bytes × Bytes), (l.map (·.1)).Pairwise (fun a b => blt a b = true) ∧
      (∀ n, n ∈ l.map (·.1) ↔ Slot.of n cs ≠ .absent) ∧
      (∀ x ∈ l, ∃ o, Slot.of x.1 cs = .holds o ∧ o.serialize cd = .ok x.2) ∧
      (step cd c .write).1 = .ok (.bytes (l.flatMap fun x => BS.smartPack (BS.smartPack [] x.1) x.2)) := by
    intro hn
    obtain ⟨f, h1, h2, h3⟩ := write_ok (cd := cd) c (hnull hn)
    have hk : ((c.zip f).map fun x => (x.1.1, x.2)).map (·.1) = SMap.keys c := by
      rw [List.map_map, SMap.keys]
      have : ((fun x : Bytes × Bytes => x.1) ∘ fun x : (Bytes × Obj G1 G2 GT) × Bytes => (x.1.1, x.2)) = (fun p => p.1) ∘ Prod.fst := rfl
      rw [this, ← List.map_map, List.map_fst_zip (by omega)]
    refine ⟨(c.zip f).map fun x => (x.1.1, x.2), ?_, ?_, ?_, ?_⟩
    · rw [hk]; exact keys_pairwise h.sorted
    · rw [hk]; exact keys_slot h
    · intro x hx
      obtain ⟨y, hy, rfl⟩ := List.mem_map.mp hx
      obtain ⟨i, hi, rfl⟩ := List.getElem_of_mem hy
      have hi1 : i < c.length := by simp at hi; omega
      have hi2 : i < f.length := by omega
      simp only [List.getElem_zip]
      have hm : ((c[i]).1, (c[i]).2) ∈ c := List.getElem_mem hi1
      refine ⟨(c[i]).2, ?_, h2 i hi1 hi2⟩
      rw [← h.slot, SMap.find_of_mem h.sorted hm]
      have := hnull hn _ hm
      revert this
      generalize (c[i]).2 = o
      intro this
      cases o <;> first | exact absurd rfl this | rfl
    · simp only [step, h3, Res.ok_bind, List.flatMap_map]
  refine ⟨?_, second⟩
  constructor
  · intro hu
    refine Classical.byContradiction fun hn => ?_
    have hn' : ∀ n, Slot.of n cs ≠ .empty := fun n e => hn ⟨n, e⟩
    obtain ⟨l, -, -, -, h4⟩ := second hn'
    rw [hu] at h4; cases h4
  · rintro ⟨n, hn⟩
    have := h.slot n
    rw [hn] at this
    cases e : SMap.find n c with
    | none => rw [e] at this; cases this
    | some o =>
      rw [e] at this
      have ho : o = .null := by
        cases o <;> first | rfl | cases this
      simp only [step, write_ub c _ (SMap.mem_of_find e) ho, Res.ub_bind]

/-- The calls that replace or remove what is under a name. -/
def Replaces (n : Bytes) : Call G1 G2 GT → Prop
  | .set m o => m = n ∧ o ≠ .null
  | .delete m => m = n
  | _ => False

/-- The calls that look up a name. -/
def Looks (n : Bytes) : Call G1 G2 GT → Prop
  | .get m => m = n
  | .getAs _ m => m = n
  | _ => False

theorem of_append (n : Bytes) (a : List (Call G1 G2 GT)) (c : Call G1 G2 GT) :
    Slot.of n (a ++ [c]) = Slot.next n (Slot.of n a) c := by
  simp [Slot.of]

theorem next_keep {n : Bytes} {s : Slot G1 G2 GT} {c : Call G1 G2 GT} (h : ¬ Replaces n c) (hl : s ≠ .absent ∨ ¬ Looks n c) :
    Slot.next n s c = s := by
  cases c with
  | set m o =>
    simp only [Slot.next]
    split
    · rename_i e
      have : o = .null := Classical.byContradiction fun ho => h ⟨e, ho⟩
      subst this; rfl
    · rfl
  | get m =>
    simp only [Slot.next]
    split
    · rename_i e
      rcases hl with hl | hl
      · cases s <;> first | exact absurd rfl hl | rfl
      · exact absurd e hl
    · rfl
  | getAs k m =>
    simp only [Slot.next]
    split
    · rename_i e
      rcases hl with hl | hl
      · cases s <;> first | exact absurd rfl hl | rfl
      · exact absurd e hl
    · rfl
  | delete m =>
    simp only [Slot.next]
    split
    · rename_i e; exact absurd e h
    · rfl
  | names => rfl
  | count => rfl
  | write => rfl

theorem of_keep {n : Bytes} {a : List (Call G1 G2 GT)} : ∀ (b : List (Call G1 G2 GT)), Slot.of n a ≠ .absent →
    (∀ c ∈ b, ¬ Replaces n c) → Slot.of n (a ++ b) = Slot.of n a := by
  intro b
  induction b generalizing a with
  | nil => intro _ _; rw [List.append_nil]
  | cons c b ih =>
    intro ha hb
    have e : Slot.of n (a ++ [c]) = Slot.of n a := by
      rw [of_append, next_keep (hb c (List.mem_cons_self ..)) (Or.inl ha)]
    rw [show a ++ c :: b = (a ++ [c]) ++ b by simp, ih (by rw [e]; exact ha) (fun x hx => hb x (List.mem_cons_of_mem _ hx)), e]

/-- **C153 (the last call counts).** An object is found under a name exactly if it was the last thing set under the name and the name was
not deleted since; lookups change nothing about that. -/
theorem C153_held (cs : List (Call G1 G2 GT)) (n : Bytes) (o : Obj G1 G2 GT) :
    Slot.of n cs = .holds o ↔ o ≠ .null ∧ (∀ p, o ≠ .policy p) ∧ ∃ a b, cs = a ++ .set n o :: b ∧ ∀ c ∈ b, ¬ Replaces n c := by
  constructor
  · induction cs using List.reverseRecOn with
    | nil => intro h; cases h
    | append_singleton cs c ih =>
      intro h
      rw [of_append] at h
      by_cases hr : Replaces n c
      · cases c with
        | set m o' =>
          obtain ⟨rfl, ho⟩ := hr
          simp only [Slot.next, if_true] at h
          have : o' = o ∧ ∀ p, o ≠ .policy p := by
            cases o' <;> first | exact absurd rfl ho | (simp only [Slot.stored] at h; cases h; exact ⟨rfl, fun p => by simp⟩) | cases h
          obtain ⟨rfl, hp⟩ := this
          exact ⟨ho, hp, cs, [], rfl, fun c hc => absurd hc List.not_mem_nil⟩
        | delete m =>
          obtain rfl : m = n := hr
          simp only [Slot.next, if_true] at h
          cases h
        | _ => exact absurd hr (fun h => h)
      · have hs : Slot.of n cs = .holds o := by
          by_cases ha : Slot.of n cs = .absent
          · by_cases hl : Looks n c
            · rw [ha] at h
              cases c with
              | get m => obtain rfl : m = n := hl; simp only [Slot.next, if_true] at h; cases h
              | getAs k m => obtain rfl : m = n := hl; simp only [Slot.next, if_true] at h; cases h
              | _ => exact absurd hl (fun h => h)
            · rwa [next_keep hr (Or.inr hl)] at h
          · rwa [next_keep hr (Or.inl ha)] at h
        obtain ⟨h1, h2, a, b, rfl, h3⟩ := ih hs
        refine ⟨h1, h2, a, b ++ [c], by simp, ?_⟩
        intro x hx
        rcases List.mem_append.mp hx with hx | hx
        · exact h3 x hx
        · rw [List.mem_singleton.mp hx]; exact hr
  · rintro ⟨h1, h2, a, b, rfl, h3⟩
    have e : Slot.of n (a ++ [.set n o]) = .holds o := by
      rw [of_append]
      cases o <;> first | exact absurd rfl h1 | exact absurd rfl (h2 _) | simp [Slot.next, Slot.stored]
    rw [show a ++ Call.set n o :: b = (a ++ [.set n o]) ++ b by simp, of_keep b (by rw [e]; simp) h3, e]

/-- **C153 (damage).** A name has an entry without an object exactly if it was looked up when nothing was there, or given a policy, and
was neither set nor deleted since. -/
theorem C153_damaged (cs : List (Call G1 G2 GT)) (n : Bytes) :
    Slot.of n cs = .empty ↔ ∃ a c b, cs = a ++ c :: b ∧ ((Looks n c ∧ Slot.of n a = .absent) ∨ ∃ p, c = .set n (.policy p)) ∧
      ∀ x ∈ b, ¬ Replaces n x := by
  constructor
  · induction cs using List.reverseRecOn with
    | nil => intro h; cases h
    | append_singleton cs c ih =>
      intro h
      rw [of_append] at h
      by_cases hr : Replaces n c
      · cases c with
        | set m o' =>
          obtain ⟨rfl, ho⟩ := hr
          simp only [Slot.next, if_true] at h
          have : ∃ p, o' = .policy p := by
            cases o' <;> first | exact absurd rfl ho | exact ⟨_, rfl⟩ | cases h
          obtain ⟨p, rfl⟩ := this
          exact ⟨cs, _, [], rfl, Or.inr ⟨p, rfl⟩, fun c hc => absurd hc List.not_mem_nil⟩
        | delete m =>
          obtain rfl : m = n := hr
          simp only [Slot.next, if_true] at h
          cases h
        | _ => exact absurd hr (fun h => h)
      · by_cases ha : Slot.of n cs = .absent ∧ Looks n c
        · exact ⟨cs, c, [], rfl, Or.inl ⟨ha.2, ha.1⟩, fun c hc => absurd hc List.not_mem_nil⟩
        · have hs : Slot.of n cs = .empty := by
            rwa [next_keep hr] at h
            by_cases h1 : Slot.of n cs = .absent
            · exact Or.inr fun hl => ha ⟨h1, hl⟩
            · exact Or.inl h1
          obtain ⟨a, x, b, rfl, h2, h3⟩ := ih hs
          refine ⟨a, x, b ++ [c], by simp, h2, ?_⟩
          intro y hy
          rcases List.mem_append.mp hy with hy | hy
          · exact h3 y hy
          · rw [List.mem_singleton.mp hy]; exact hr
  · rintro ⟨a, c, b, rfl, h2, h3⟩
    have e : Slot.of n (a ++ [c]) = .empty := by
      rw [of_append]
      rcases h2 with ⟨hl, ha⟩ | ⟨p, rfl⟩
      · rw [ha]
        cases c with
        | get m => obtain rfl : m = n := hl; simp [Slot.next]
        | getAs k m => obtain rfl : m = n := hl; simp [Slot.next]
        | _ => exact absurd hl (fun h => h)
      · simp [Slot.next, Slot.stored]
    rw [show a ++ c :: b = (a ++ [c]) ++ b by simp, of_keep b (by rw [e]; simp) h3, e]

/-! ### Examples -/

/-- Looking up `x` in vain makes writing undefined; deleting `x`, or setting it, repairs the container. -/
example : (step ToyCodec.codec (after ToyCodec.codec [.set b!"k" (.bytes [1]), .get b!"x"]) .write).1 = .ub ∧
    (step ToyCodec.codec (after ToyCodec.codec [.set b!"k" (.bytes [1]), .get b!"x", .delete b!"x"]) .write).1 =
      .ok (.bytes (BS.smartPack (BS.smartPack [] b!"k") (BS.serialize [1]))) := by
  refine ⟨(C153_write _).1.mpr ⟨b!"x", rfl⟩, rfl⟩

/-- An object under `k` is found after lookups, as a number but not as bytes. -/
example : (step ToyCodec.codec (after ToyCodec.codec [.set b!"k" (.zp 3), .getAs .zp b!"k", .get b!"x"]) (.getAs .bytes b!"k")).1 =
    .ok (.pointer none) :=
  (C153_typed _ _ _).2.1 (.zp 3) rfl (fun h => by cases h)

end ContUse
end Abe
