import Verif.Spec.Rows
import Verif.Proof.LsssApi
/-! How many rows recovery uses, and what the number reported by a scan is. -/
set_option linter.unusedSimpArgs false
set_option linter.unusedSectionVars false
set_option autoImplicit false
namespace Abe
variable {F : Type} [Field F] [DecidableEq F]

/-! ### Ways -/

theorem ways_leaf {H : Bytes → Prop} {fl pre lab idx n} :
    Ways H (.leaf fl pre lab idx) n ↔ H (completeLabel pre lab) ∧ n = 1 :=
  ⟨fun h => by cases h; exact ⟨‹_›, rfl⟩, fun ⟨h, e⟩ => e ▸ .leaf h⟩

theorem ways_or {H : Bytes → Prop} {fl thr subs n} :
    Ways H (.gate fl .or thr subs) n ↔ ∃ c ∈ subs, Ways H c n :=
  ⟨fun h => by cases h; exact ⟨_, ‹_›, ‹_›⟩, fun ⟨_, h1, h2⟩ => .one h1 h2⟩

theorem ways_and {H : Bytes → Prop} {fl thr} : ∀ {subs : List TNode} {n : Nat},
    Ways H (.gate fl .and thr subs) n ↔ ∃ ns, List.Forall₂ (Ways H) subs ns ∧ ns.sum = n
  | [], n => by
    constructor
    · intro h; cases h; exact ⟨[], .nil, rfl⟩
    · rintro ⟨ns, h, rfl⟩; cases h; exact .none
  | c :: cs, n => by
    constructor
    · intro h
      cases h with
      | all h1 h2 =>
        obtain ⟨ns, h3, rfl⟩ := ways_and.mp h2
        exact ⟨_ :: ns, .cons h1 h3, by simp⟩
    · rintro ⟨ns, h, rfl⟩
      cases h with
      | cons h1 h2 => rw [List.sum_cons]; exact .all h1 (ways_and.mpr ⟨_, h2, rfl⟩)

theorem ways_other {H : Bytes → Prop} {fl ty thr subs n} (h : Ways H (.gate fl ty thr subs) n) : ty = .and ∨ ty = .or := by
  cases h <;> simp

theorem forall₂_congr_mem {α β γ : Type} {R : α → γ → Prop} {Q : β → γ → Prop} (f : α → β) : ∀ {l : List α} {ns : List γ},
    (∀ c ∈ l, ∀ n, Q (f c) n ↔ R c n) → (List.Forall₂ Q (l.map f) ns ↔ List.Forall₂ R l ns)
  | [], ns, _ => by simp
  | c :: cs, [], _ => by simp
  | c :: cs, n :: ns, h => by
    have ih := forall₂_congr_mem f (l := cs) (ns := ns) (R := R) (Q := Q) (fun d hd => h d (by simp [hd]))
    simp only [List.map_cons, List.forall₂_cons, h c (by simp) n, ih]

theorem ways_reset {H : Bytes → Prop} : ∀ (t : TNode) (n : Nat), Ways H (resetFlags t) n ↔ Ways H t n := by
  apply TNode.ind
  · intro fl pre lab idx n; simp only [resetFlags, ways_leaf]
  · intro fl ty thr subs ih n
    simp only [resetFlags, resetFlagsL_eq]
    cases ty with
    | and => simp only [ways_and, forall₂_congr_mem resetFlags ih]
    | or =>
      simp only [ways_or, List.mem_map]
      constructor
      · rintro ⟨_, ⟨c, hc, rfl⟩, h⟩; exact ⟨c, hc, (ih c hc n).mp h⟩
      · rintro ⟨c, hc, h⟩; exact ⟨_, ⟨c, hc, rfl⟩, (ih c hc n).mpr h⟩
    | threshold => constructor <;> intro h <;> simpa using ways_other h
    | other => constructor <;> intro h <;> simpa using ways_other h

theorem SameTree.ways {H : Bytes → Prop} {t u : TNode} (h : SameTree t u) (n : Nat) : Ways H t n ↔ Ways H u n := by
  rw [← ways_reset t, h, ways_reset u]

theorem direct_reset (t : TNode) : (resetFlags t).direct = t.direct := by
  cases t with
  | leaf => rfl
  | gate => simp [TNode.direct, TNode.numSubnodes, resetFlags, resetFlagsL_eq]

theorem direct_setMark (t : TNode) (m n) : (t.setMark m n).direct = t.direct := by cases t <;> rfl

theorem ways_mono {H K : Bytes → Prop} (hk : ∀ x, H x → K x) {t : TNode} {n : Nat} (h : Ways H t n) : Ways K t n := by
  induction h with
  | leaf h => exact .leaf (hk _ h)
  | none => exact .none
  | all _ _ i1 i2 => exact .all i1 i2
  | one h _ i => exact .one h i

theorem ClearL_iff : ∀ l, ClearL l ↔ ∀ c ∈ l, Clear c
  | [] => by simp [ClearL]
  | c :: cs => by simp [ClearL, ClearL_iff cs]

theorem FlatL_iff : ∀ l, FlatL l ↔ ∀ c ∈ l, Flat c
  | [] => by simp [FlatL]
  | c :: cs => by simp [FlatL, FlatL_iff cs]

theorem rightOrder_reset (c d : TNode) : RightOrder (resetFlags c) (resetFlags d) ↔ RightOrder c d := by
  simp only [RightOrder, direct_reset, ways_reset]

theorem clear_reset : ∀ t, Clear (resetFlags t) ↔ Clear t := by
  apply TNode.ind
  · intros; simp [resetFlags, Clear]
  · intro fl ty thr subs ih
    simp only [resetFlags, resetFlagsL_eq, Clear, ClearL_iff, List.pairwise_map, rightOrder_reset, List.mem_map,
      forall_exists_index, and_imp, forall_apply_eq_imp_iff₂]
    exact and_congr Iff.rfl (forall₂_congr fun c hc => ih c hc)

theorem SameTree.clear {t u : TNode} (h : SameTree t u) : Clear t ↔ Clear u := by
  rw [← clear_reset t, h, clear_reset u]

theorem isLeaf_reset (t : TNode) : (resetFlags t).isLeaf = t.isLeaf := by cases t <;> rfl

theorem clause_reset (t : TNode) : (resetFlags t).Clause ↔ t.Clause := by
  cases t with
  | leaf => exact Iff.rfl
  | gate fl ty thr subs => simp [resetFlags, resetFlagsL_eq, TNode.Clause, isLeaf_reset]

theorem flat_reset : ∀ t, Flat (resetFlags t) ↔ Flat t := by
  apply TNode.ind
  · intros; simp [resetFlags, Flat]
  · intro fl ty thr subs ih
    simp only [resetFlags, resetFlagsL_eq, Flat, FlatL_iff, List.mem_map, forall_exists_index, and_imp,
      forall_apply_eq_imp_iff₂, clause_reset]
    exact and_congr Iff.rfl (forall₂_congr fun c hc => ih c hc)

theorem SameTree.flat {t u : TNode} (h : SameTree t u) : Flat t ↔ Flat u := by
  rw [← flat_reset t, h, flat_reset u]

/-! ### Ways and sets of attributes -/

theorem sat_of_ways {B : List Bytes} {t : TNode} {n : Nat} (h : Ways (· ∈ B) t n) : sat B t = true := by
  induction h with
  | leaf h => simpa [sat] using h
  | none => simp [sat, satL]
  | all _ _ i1 i2 => simp only [sat, satL, List.all_cons, id, i1, Bool.true_and] at i2 ⊢; exact i2
  | one h _ i => simp only [sat, satL_eq, List.any_map, List.any_eq_true]; exact ⟨_, h, i⟩

/-- The attributes of a way satisfy the tree. -/
theorem ways_sat {H : Bytes → Prop} {t : TNode} {n : Nat} (h : Ways H t n) :
    ∃ B : List Bytes, B.length = n ∧ (∀ b ∈ B, H b) ∧ sat B t = true := by
  have get : ∃ B : List Bytes, B.length = n ∧ (∀ b ∈ B, H b) ∧ Ways (· ∈ B) t n := by
    induction h with
    | leaf h => exact ⟨[_], rfl, by simpa using h, .leaf (by simp)⟩
    | none => exact ⟨[], rfl, by simp, .none⟩
    | all _ _ i1 i2 =>
      obtain ⟨B, b1, b2, b3⟩ := i1
      obtain ⟨C, c1, c2, c3⟩ := i2
      refine ⟨B ++ C, by simp [b1, c1], ?_, .all (ways_mono ?_ b3) (ways_mono ?_ c3)⟩
      · intro b hb; rcases List.mem_append.mp hb with h | h
        · exact b2 b h
        · exact c2 b h
      · intro x hx; exact List.mem_append.mpr (.inl hx)
      · intro x hx; exact List.mem_append.mpr (.inr hx)
    | one h _ i =>
      obtain ⟨B, b1, b2, b3⟩ := i
      exact ⟨B, b1, b2, .one h b3⟩
  obtain ⟨B, b1, b2, b3⟩ := get
  exact ⟨B, b1, b2, sat_of_ways b3⟩

/-- Leaves with attributes in `B`. -/
def heldLeaves (B : List Bytes) (t : TNode) : List Leaf := (leaves t).filter fun l => B.contains l.label

theorem heldLeaves_le (B : List Bytes) {c : TNode} : ∀ {subs : List TNode}, c ∈ subs → ∀ {fl ty thr},
    (heldLeaves B c).length ≤ (heldLeaves B (.gate fl ty thr subs)).length := by
  intro subs hc fl ty thr
  simp only [heldLeaves, leaves, leavesL_eq]
  obtain ⟨l, r, rfl⟩ := List.append_of_mem hc
  simp only [List.flatMap_append, List.flatMap_cons, List.filter_append, List.length_append]
  omega

theorem sat_ways (B : List Bytes) : ∀ t : TNode, AndOr t → sat B t = true →
    ∃ n, n ≤ (heldLeaves B t).length ∧ Ways (· ∈ B) t n := by
  apply TNode.ind
  · intro fl pre lab idx _ h
    have h : completeLabel pre lab ∈ B := by simpa [sat] using h
    exact ⟨1, by simp [heldLeaves, leaves, Leaf.label, h], .leaf h⟩
  · intro fl ty thr subs ih hao h
    obtain ⟨hty, -, hs⟩ := hao
    rw [AndOrL_iff] at hs
    rcases hty with rfl | rfl
    · have : ∀ l : List TNode, (∀ c ∈ l, AndOr c) → (∀ c ∈ l, AndOr c → sat B c = true →
          ∃ n, n ≤ (heldLeaves B c).length ∧ Ways (· ∈ B) c n) → sat B (.gate fl .and thr l) = true →
          ∃ n, n ≤ (heldLeaves B (.gate fl .and thr l)).length ∧ Ways (· ∈ B) (.gate fl .and thr l) n := by
        intro l
        induction l with
        | nil => intro _ _ _; exact ⟨0, by simp, .none⟩
        | cons c cs ihl =>
          intro ha hi hsat
          simp only [sat, satL, List.all_cons, id, Bool.and_eq_true] at hsat
          obtain ⟨n, n1, n2⟩ := hi c (by simp) (ha c (by simp)) hsat.1
          obtain ⟨m, m1, m2⟩ := ihl (fun d hd => ha d (by simp [hd])) (fun d hd => hi d (by simp [hd]))
            (by simpa [sat] using hsat.2)
          refine ⟨n + m, ?_, .all n2 m2⟩
          simp only [heldLeaves, leaves, leavesL, List.filter_append, List.length_append] at n1 m1 ⊢
          omega
      exact this subs hs ih h
    · simp only [sat, satL_eq, List.any_map, List.any_eq_true] at h
      obtain ⟨c, hc, h⟩ := h
      obtain ⟨n, n1, n2⟩ := ih c hc (hs c hc) h
      exact ⟨n, n1.trans (heldLeaves_le B hc), .one hc n2⟩

theorem sat_ways_distinct {B : List Bytes} {t : TNode} (hao : AndOr t) (hnd : ((leaves t).map Leaf.label).Nodup)
    (h : sat B t = true) : ∃ n, n ≤ B.length ∧ Ways (· ∈ B) t n := by
  obtain ⟨n, n1, n2⟩ := sat_ways B t hao h
  refine ⟨n, n1.trans ?_, n2⟩
  have h1 : ((heldLeaves B t).map Leaf.label).Nodup := hnd.sublist (List.filter_sublist.map _)
  have h2 : (heldLeaves B t).map Leaf.label ⊆ B := by
    intro x hx
    obtain ⟨l, hl, rfl⟩ := List.mem_map.mp hx
    simpa [heldLeaves] using (List.mem_filter.mp hl).2
  simpa using (h1.subperm h2).length_le

/-! ### What a scan leaves -/

/-- the numbers of the children of a gate -/
def satSum : List TNode → Int
  | [] => 0
  | c :: cs => c.flags.sat.getD 0 + satSum cs

theorem andLoop_sum : ∀ (subs : List TNode) (r : Bool) (n : Int), (∀ c ∈ subs, c.flags.sat.isSome) →
    andLoop subs r n = .ok (r && subs.all TNode.mark, n + satSum subs)
  | [], r, n, _ => by simp [andLoop, satSum]
  | c :: cs, r, n, h => by
    obtain ⟨k, hk⟩ := Option.isSome_iff_exists.mp (h c (by simp))
    rw [andLoop, hk]
    simp only
    rw [andLoop_sum cs _ _ fun d hd => h d (by simp [hd])]
    simp [satSum, hk, Bool.and_assoc, add_assoc]

mutual
/-- The numbers of marked nodes, and which subnode of an OR gate is the marked one. -/
def Ranked (A : List Bytes) : TNode → Prop
  | .leaf fl _ _ _ => fl.mark = true → fl.sat = some 1
  | .gate fl ty _ subs =>
    (fl.mark = true → ty = .and → fl.sat = some (satSum subs)) ∧
    (fl.mark = true → ty = .or → ∀ c ∈ subs, c.mark = true → fl.sat = some (c.direct : Int) ∧
      ∀ d ∈ subs, sat A d = true → c.direct ≤ d.direct) ∧ RankedL A subs
/-- `Ranked` for all children -/
def RankedL (A : List Bytes) : List TNode → Prop
  | [] => True
  | c :: cs => Ranked A c ∧ RankedL A cs
end

theorem RankedL_iff (A) : ∀ l, RankedL A l ↔ ∀ c ∈ l, Ranked A c
  | [] => by simp [RankedL]
  | c :: cs => by simp [RankedL, RankedL_iff A cs]

theorem Ranked.unmark {A t} (h : Ranked A t) : Ranked A (t.setMark false 0) := by
  cases t with
  | leaf => simp [TNode.setMark, TNode.withFlags, Ranked, TNode.flags]
  | gate => exact ⟨by simp [TNode.flags], by simp [TNode.flags], h.2.2⟩

theorem Ranked.setVisited {A t} (h : Ranked A t) : Ranked A (setVisited t) := by
  cases t with
  | leaf => exact h
  | gate => exact h

theorem mem_orList_direct : ∀ (subs : List TNode) (k i n : Nat), (i, n) ∈ orList subs k →
    ∃ c, subs[i - k]? = some c ∧ n = c.direct
  | [], _, _, _, h => by simp [orList] at h
  | c :: cs, k, i, n, h => by
    have step : (i, n) ∈ orList cs (k + 1) → ∃ d, (c :: cs)[i - k]? = some d ∧ n = d.direct := by
      intro h'
      obtain ⟨d, h1, h2⟩ := mem_orList_direct cs (k + 1) i n h'
      have := (mem_orList cs (k + 1) i n h').1
      have e : i - k = (i - (k + 1)) + 1 := by omega
      exact ⟨d, by rw [e]; simpa using h1, h2⟩
    simp only [orList] at h
    split at h
    · rcases List.mem_cons.mp h with h | h
      · obtain ⟨rfl, rfl⟩ := Prod.mk.injEq .. ▸ h
        exact ⟨c, by simp, rfl⟩
      · exact step h
    · exact step h

theorem scan_ranked (S : StdSort) (A : List Bytes) : ∀ t t', AndOr t → Fresh t → scan S A t = .ok t' → Ranked A t' := by
  apply TNode.ind
  · intro fl pre lab idx t' _ _ h
    simp only [scan, Res.ok.injEq] at h
    subst h
    intro h
    have h : A.contains (completeLabel pre lab) = true := h
    simp only [h, if_true]
  · intro fl ty thr subs ih t' hao hfr h
    obtain ⟨hty, hne, hs⟩ := hao
    rw [AndOrL_iff] at hs
    have hf : ∀ c ∈ subs, c.flags.visited = false ∧ Fresh c := (FreshL_iff _).1 hfr
    have hrank : ∀ l : List TNode, (∀ c ∈ l, c ∈ subs) → ∀ l', scanL S A l = .ok l' → ∀ c ∈ l', Ranked A c := by
      intro l
      induction l with
      | nil => intro _ l' h; simp only [scanL, Res.ok.injEq] at h; subst h; simp
      | cons c cs ihl =>
        intro hm l' h
        obtain ⟨cs', h1, -⟩ := scanL_ok S A cs (fun d hd => (hf d (hm d (by simp [hd]))).1)
          (fun d hd => scan_ok S A d (hs d (hm d (by simp [hd]))) (hf d (hm d (by simp [hd]))).2)
        obtain ⟨c', h2, -⟩ := scan_ok S A c (hs c (hm c (by simp))) (hf c (hm c (by simp))).2
        simp only [scanL, h1, Res.ok_bind, (hf c (hm c (by simp))).1, Bool.false_eq_true, if_false, h2, Res.ok.injEq] at h
        subst h
        intro d hd
        rcases List.mem_cons.mp hd with rfl | hd
        · exact ih c (hm c (by simp)) _ (hs c (hm c (by simp))) (hf c (hm c (by simp))).2 h2
        · exact ihl (fun e he => hm e (by simp [he])) cs' h1 d hd
    obtain ⟨subs', h1, h2⟩ := scanL_ok S A subs (fun c hc => (hf c hc).1)
      (fun c hc => scan_ok S A c (hs c hc) (hf c hc).2)
    have hr := hrank subs (fun _ h => h) subs' h1
    have hsat : ∀ c ∈ subs', c.flags.sat.isSome := fun c hc => by
      obtain ⟨x, _, hx⟩ := forall₂_mem h2 c hc; exact hx.hassat
    have hmk : ∀ c ∈ subs', c.mark = sat A c := fun c hc => by
      obtain ⟨x, _, hx⟩ := forall₂_mem h2 c hc; rw [hx.mark, hx.same.sat]
    simp only [scan, h1, Res.ok_bind] at h
    rcases hty with rfl | rfl
    · simp only [determine, andLoop_sum subs' true 0 hsat, Res.ok_bind, Bool.true_and] at h
      split at h <;> simp only [Res.ok_bind, Res.ok.injEq] at h <;> subst h <;> apply Ranked.setVisited
      · exact ⟨by simp, by simp, (RankedL_iff _ _).2 hr⟩
      · exact ⟨by simp, by simp, (RankedL_iff _ _).2 hr⟩
    · rcases or_spec S subs' with ⟨ha, he, hl⟩ | ⟨i, n, rest, s', he, ha, hl, hlen, hi, hj, hd⟩
      · simp only [determine, hl, Bool.false_eq_true, if_false, Res.ok_bind, Res.ok.injEq] at h
        subst h
        apply Ranked.setVisited
        exact ⟨by simp, by simp, (RankedL_iff _ _).2 hr⟩
      · simp only [determine, hl, if_true] at h
        rw [he] at h
        simp only [Res.ok_bind, Res.ok.injEq] at h
        subst h
        apply Ranked.setVisited
        have hperm := S.perm (orList subs' 0)
        have hsort := S.sorted (orList subs' 0)
        rw [he] at hperm hsort
        obtain ⟨ci, hci, hn⟩ := mem_orList_direct subs' 0 i n (hperm.mem_iff.mp (by simp))
        rw [Nat.sub_zero] at hci
        refine ⟨by simp, fun _ _ c hc hm => ?_, (RankedL_iff _ _).2 fun c hc => ?_⟩
        · obtain ⟨k, hk⟩ := List.mem_iff_getElem?.mp hc
          have hki : k = i := by
            by_contra hne
            have := hj k hne
            rw [markAt_of_get hk, hm] at this
            exact absurd this (by simp)
          subst hki
          obtain ⟨d, hd1, hd2⟩ := hd k c hk
          rw [hci] at hd1
          have hdc : c.direct = ci.direct := by
            obtain rfl : ci = d := by simpa using hd1
            rcases hd2 with rfl | rfl
            · rfl
            · exact direct_setMark _ _ _
          refine ⟨by simp [hn, hdc], fun e hee hes => ?_⟩
          obtain ⟨j, hjj⟩ := List.mem_iff_getElem?.mp hee
          obtain ⟨e0, g1, g2⟩ := hd j e hjj
          have ge : sat A e0 = true ∧ e.direct = e0.direct := by
            rcases g2 with rfl | rfl
            · exact ⟨hes, rfl⟩
            · refine ⟨?_, direct_setMark _ _ _⟩
              rw [← sat_reset, resetFlags_setMark, sat_reset] at hes; exact hes
          have gm : markAt subs' j = true := by
            rw [markAt_of_get g1, hmk e0 (List.mem_of_getElem? g1), ge.1]
          obtain ⟨n', hn'⟩ := orList_complete subs' 0 j gm
          rw [Nat.zero_add] at hn'
          obtain ⟨e1, g3, g4⟩ := mem_orList_direct subs' 0 j n' hn'
          rw [Nat.sub_zero, g1] at g3
          obtain rfl : e0 = e1 := by simpa using g3
          rw [hdc, ge.2, ← hn, ← g4]
          rcases List.mem_cons.mp (hperm.mem_iff.mpr hn') with h | h
          · simp only [Prod.mk.injEq] at h; omega
          · exact (List.pairwise_cons.mp hsort).1 _ h
        · obtain ⟨k, hk⟩ := List.mem_iff_getElem?.mp hc
          obtain ⟨d, hd1, hd2⟩ := hd k c hk
          have := hr d (List.mem_of_getElem? hd1)
          rcases hd2 with rfl | rfl
          · exact this
          · exact this.unmark

/-! ### Rows used -/

mutual
/-- Leaves that are reached through marked nodes. -/
def taken : TNode → Nat
  | .leaf _ _ _ _ => 1
  | .gate _ _ _ subs => takenL subs
/-- leaves below the marked nodes of a forest -/
def takenL : List TNode → Nat
  | [] => 0
  | c :: cs => (if c.mark then taken c else 0) + takenL cs
end

theorem recRows_taken : ∀ (t : TNode) (v : F), (recRows (recFull t v true)).length = taken t := by
  apply TNode.ind
  · intro fl pre lab idx v; simp [recFull, recRows, taken]
  · intro fl ty thr subs ih v
    have : ∀ (all : List TNode) (th : Nat) (l : List TNode), (∀ c ∈ l, ∀ v : F, (recRows (recFull c v true)).length = taken c) →
        ∀ i, (recRows (recFullL all th v true l i)).length = takenL l := by
      intro all th l
      induction l with
      | nil => intro _ i; simp [recFullL, recRows, takenL]
      | cons c cs ihl =>
        intro h i
        simp only [recFullL, recRows_append, List.length_append, takenL, Bool.true_and,
          ihl (fun d hd => h d (by simp [hd]))]
        by_cases hm : c.mark = true
        · rw [hm, h c (by simp)]; simp; omega
        · have hm : c.mark = false := by simpa using hm
          rw [hm, recRows_inactive]; simp
    exact this subs _ subs ih 0

theorem takenL_all : ∀ l : List TNode, (∀ c ∈ l, c.mark = true) → takenL l = (l.map taken).sum
  | [], _ => rfl
  | c :: cs, h => by simp [takenL, h c (by simp), takenL_all cs fun d hd => h d (by simp [hd])]

theorem takenL_none : ∀ l : List TNode, (∀ c ∈ l, c.mark = false) → takenL l = 0
  | [], _ => rfl
  | c :: cs, h => by simp [takenL, h c (by simp), takenL_none cs fun d hd => h d (by simp [hd])]

theorem takenL_append : ∀ a b : List TNode, takenL (a ++ b) = takenL a + takenL b
  | [], b => by simp [takenL]
  | c :: cs, b => by simp [takenL, takenL_append cs b, add_assoc]

theorem forall₂_map_self {α β : Type} {R : α → β → Prop} (f : α → β) : ∀ l : List α, (∀ c ∈ l, R c (f c)) → List.Forall₂ R l (l.map f)
  | [], _ => .nil
  | c :: cs, h => .cons (h c (by simp)) (forall₂_map_self f cs fun d hd => h d (by simp [hd]))

/-- What recovery uses is a way. -/
theorem taken_way (A : List Bytes) : ∀ t, AndOr t → Good A t → t.mark = true → Ways (· ∈ A) t (taken t) := by
  apply TNode.ind
  · intro fl pre lab idx _ hg hm; exact .leaf (hg hm)
  · intro fl ty thr subs ih hao hg hm
    have hm : fl.mark = true := hm
    obtain ⟨hty, -, hs⟩ := hao
    rw [AndOrL_iff] at hs
    have hgl := (GoodL_iff _ _).1 hg.2.2
    rcases hty with rfl | rfl
    · have hall := hg.1 hm rfl
      rw [taken, takenL_all subs hall, ways_and]
      exact ⟨_, forall₂_map_self taken subs fun c hc => ih c hc (hs c hc) (hgl c hc) (hall c hc), rfl⟩
    · obtain ⟨l, c, r, rfl, hc, hl, hr⟩ := hg.2.1 hm rfl
      have : takenL (l ++ c :: r) = taken c := by simp [takenL_append, takenL, takenL_none l hl, takenL_none r hr, hc]
      rw [taken, this]
      exact .one (by simp) (ih c (by simp) (hs c (by simp)) (hgl c (by simp)) hc)

theorem sum_le_of_forall₂ {R : TNode → Nat → Prop} {f : TNode → Nat} : ∀ {l : List TNode} {ns : List Nat}, List.Forall₂ R l ns →
    (∀ c ∈ l, ∀ n, R c n → f c ≤ n) → (l.map f).sum ≤ ns.sum := by
  intro l ns h
  induction h with
  | nil => simp
  | cons h1 _ ih =>
    intro h
    have := h _ (by simp) _ h1
    have := ih fun c hc => h c (by simp [hc])
    simp only [List.map_cons, List.sum_cons]; omega

/-- In clear trees no way uses fewer leaves. -/
theorem taken_least (A : List Bytes) : ∀ t, AndOr t → Good A t → Ranked A t → Clear t → t.mark = true →
    ∀ m, Ways (· ∈ A) t m → taken t ≤ m := by
  apply TNode.ind
  · intro fl pre lab idx _ _ _ _ _ m h
    rw [(ways_leaf.mp h).2]; simp [taken]
  · intro fl ty thr subs ih hao hg hr hc hm m h
    have hm : fl.mark = true := hm
    obtain ⟨hty, -, hs⟩ := hao
    rw [AndOrL_iff] at hs
    have hgl := (GoodL_iff _ _).1 hg.2.2
    have hrl := (RankedL_iff _ _).1 hr.2.2
    have hcl := (ClearL_iff _).1 hc.2
    rcases hty with rfl | rfl
    · have hall := hg.1 hm rfl
      rw [taken, takenL_all subs hall]
      obtain ⟨ns, h1, rfl⟩ := ways_and.mp h
      exact sum_le_of_forall₂ h1 fun c hc n hn => ih c hc (hs c hc) (hgl c hc) (hrl c hc) (hcl c hc) (hall c hc) n hn
    · obtain ⟨d, hd, hw⟩ := ways_or.mp h
      have hor := hg.2.1 hm rfl
      have hmem : ∃ c ∈ subs, c.mark = true ∧ takenL subs = taken c := by
        obtain ⟨l, c, r, rfl, hcm, hl, hr'⟩ := hor
        exact ⟨c, by simp, hcm, by simp [takenL_append, takenL, takenL_none l hl, takenL_none r hr', hcm]⟩
      obtain ⟨c, hcs, hcm, e⟩ := hmem
      rw [taken, e]
      by_cases hcd : c = d
      · subst hcd
        exact ih c hcs (hs c hcs) (hgl c hcs) (hrl c hcs) (hcl c hcs) hcm m hw
      · have : Std.Symm fun c d : TNode => RightOrder c d ∧ RightOrder d c := ⟨fun _ _ h => ⟨h.2, h.1⟩⟩
        have hro := ((hc.1 rfl).forall hcs hd hcd).1
        have hsd : sat A d = true := sat_of_ways hw
        exact hro ((hr.2.1 hm rfl c hcs hcm).2 d hd hsd) _ _
          (ways_mono (fun _ _ => trivial) (taken_way A c (hs c hcs) (hgl c hcs) hcm)) (ways_mono (fun _ _ => trivial) hw)

/-! ### Flat trees -/

theorem clause_ways {H : Bytes → Prop} {c : TNode} (hc : c.Clause) {n : Nat} (h : Ways H c n) : n = c.direct := by
  cases c with
  | leaf => rw [(ways_leaf.mp h).2]; rfl
  | gate fl ty thr subs =>
    obtain ⟨rfl, hne, hl⟩ := hc
    obtain ⟨ns, h1, rfl⟩ := ways_and.mp h
    have : ∀ (l : List TNode) (ns : List Nat), List.Forall₂ (Ways H) l ns → (∀ c ∈ l, c.isLeaf = true) → ns.sum = l.length := by
      intro l ns h
      induction h with
      | nil => intro _; rfl
      | @cons c n l ns h1 _ ih =>
        intro h
        have hc := h c (by simp)
        cases c with
        | leaf => rw [List.sum_cons, (ways_leaf.mp h1).2, ih fun d hd => h d (by simp [hd])]; simp; omega
        | gate => simp [TNode.isLeaf] at hc
    rw [this subs ns h1 hl]
    simp [TNode.direct, TNode.numSubnodes, hne]

theorem flat_clear : ∀ t, Flat t → Clear t := by
  apply TNode.ind
  · intros; trivial
  · intro fl ty thr subs ih h
    refine ⟨fun e => ?_, (ClearL_iff _).2 fun c hc => ih c hc ((FlatL_iff _).1 h.2 c hc)⟩
    have hcl := h.1 e
    have : ∀ c ∈ subs, ∀ d ∈ subs, RightOrder c d := by
      intro c hc d hd hle n m hn hm
      rw [clause_ways (hcl c hc) hn, clause_ways (hcl d hd) hm]; exact hle
    rw [List.pairwise_iff_getElem]
    intro i j hi hj _
    exact ⟨this _ (List.getElem_mem _) _ (List.getElem_mem _), this _ (List.getElem_mem _) _ (List.getElem_mem _)⟩

/-- In flat trees the number of the root is the number of leaves used. -/
theorem flat_report (A : List Bytes) : ∀ t, AndOr t → Good A t → Ranked A t → Flat t → t.mark = true →
    t.flags.sat = some (taken t : Int) := by
  apply TNode.ind
  · intro fl pre lab idx _ _ hr _ hm; exact hr hm
  · intro fl ty thr subs ih hao hg hr hf hm
    have hm : fl.mark = true := hm
    obtain ⟨hty, -, hs⟩ := hao
    rw [AndOrL_iff] at hs
    have hgl := (GoodL_iff _ _).1 hg.2.2
    have hrl := (RankedL_iff _ _).1 hr.2.2
    have hfl := (FlatL_iff _).1 hf.2
    rcases hty with rfl | rfl
    · have hall := hg.1 hm rfl
      have : ∀ l : List TNode, (∀ c ∈ l, c.flags.sat = some (taken c : Int)) → satSum l = ((l.map taken).sum : Nat) := by
        intro l
        induction l with
        | nil => intro _; rfl
        | cons c cs ihl =>
          intro h
          rw [satSum, h c (by simp), ihl fun d hd => h d (by simp [hd])]; simp
      show fl.sat = _
      rw [hr.1 hm rfl, taken, takenL_all subs hall,
        this subs fun c hc => ih c hc (hs c hc) (hgl c hc) (hrl c hc) (hfl c hc) (hall c hc)]
    · obtain ⟨l, c, r, e, hcm, hl, hr'⟩ := hg.2.1 hm rfl
      have hcs : c ∈ subs := by rw [e]; simp
      have e2 : takenL subs = taken c := by rw [e]; simp [takenL_append, takenL, takenL_none l hl, takenL_none r hr', hcm]
      show fl.sat = _
      rw [(hr.2.1 hm rfl c hcs hcm).1, taken, e2,
        clause_ways (hf.1 rfl c hcs) (taken_way A c (hs c hcs) (hgl c hcs) hcm)]

/-! ### Trees that are not clear -/

theorem ways_congr {H K : Bytes → Prop} : ∀ (t : TNode) (n : Nat), (∀ l ∈ leaves t, H l.label → K l.label) → Ways H t n → Ways K t n := by
  intro t n hl h
  induction h with
  | @leaf fl pre lab idx h => exact .leaf (hl ⟨pre, lab, idx⟩ (by simp [leaves]) h)
  | none => exact .none
  | all _ _ i1 i2 =>
    exact .all (i1 fun l h => hl l (by simp [leaves, leavesL, h])) (i2 fun l h => hl l (by simp [leaves, leavesL] at h ⊢; exact .inr h))
  | one hc _ i => exact .one hc (i fun l h => hl l (by simp only [leaves, leavesL_eq, List.mem_flatMap]; exact ⟨_, hc, h⟩))

theorem scan_attrs_congr (S : StdSort) {A B : List Bytes} : ∀ t, (∀ l ∈ leaves t, A.contains l.label = B.contains l.label) →
    scan S A t = scan S B t := by
  apply TNode.ind
  · intro fl pre lab idx h
    have := h ⟨pre, lab, idx⟩ (by simp [leaves])
    simp only [Leaf.label] at this
    simp only [scan, this]
  · intro fl ty thr subs ih h
    have : ∀ l : List TNode, (∀ c ∈ l, scan S A c = scan S B c) → scanL S A l = scanL S B l := by
      intro l
      induction l with
      | nil => intro _; rfl
      | cons c cs ihl => intro h; simp only [scanL, ihl fun d hd => h d (by simp [hd]), h c (by simp)]
    simp only [scan, this subs fun c hc => ih c hc fun l hl => h l (by
      simp only [leaves, leavesL_eq, List.mem_flatMap]; exact ⟨c, hc, hl⟩)]

theorem sat_none {A : List Bytes} : ∀ t, AndOr t → (∀ l ∈ leaves t, l.label ∉ A) → sat A t = false := by
  apply TNode.ind
  · intro fl pre lab idx _ h; simpa [sat, leaves, Leaf.label] using h
  · intro fl ty thr subs ih hao h
    obtain ⟨hty, hne, hs⟩ := hao
    rw [AndOrL_iff] at hs
    have hc : ∀ c ∈ subs, sat A c = false := fun c hc => ih c hc (hs c hc) fun l hl => h l (by
      simp only [leaves, leavesL_eq, List.mem_flatMap]; exact ⟨c, hc, hl⟩)
    obtain ⟨c, cs, rfl⟩ := List.exists_cons_of_ne_nil hne
    rcases hty with rfl | rfl
    · simp [sat, satL, hc c (by simp)]
    · simp only [sat, satL_eq, List.any_map, List.any_eq_false]
      intro d hd; simp [hc d hd]

theorem sat_all {A : List Bytes} : ∀ t, AndOr t → (∀ l ∈ leaves t, l.label ∈ A) → sat A t = true := by
  apply TNode.ind
  · intro fl pre lab idx _ h; simpa [sat, leaves, Leaf.label] using h
  · intro fl ty thr subs ih hao h
    obtain ⟨hty, hne, hs⟩ := hao
    rw [AndOrL_iff] at hs
    have hc : ∀ c ∈ subs, sat A c = true := fun c hc => ih c hc (hs c hc) fun l hl => h l (by
      simp only [leaves, leavesL_eq, List.mem_flatMap]; exact ⟨c, hc, hl⟩)
    obtain ⟨c, cs, rfl⟩ := List.exists_cons_of_ne_nil hne
    rcases hty with rfl | rfl
    · simp only [sat, satL_eq, List.all_map, List.all_eq_true]
      intro d hd; simp [hc d hd]
    · simp [sat, satL, hc c (by simp)]

end Abe
