import Verif.Proof.Parser
import Verif.Props.Numeric
/-!
# The trees that parsing builds: defined, well-shaped, numbered, and meaning what the text says
-/
set_option linter.unusedSimpArgs false
set_option linter.unusedSectionVars false
set_option autoImplicit false
namespace Abe

variable {mk : Mktime}

/-! ### Definedness -/

theorem NumSyn.numOk {n : NumSyn} (hv : n.valid = true) (ht : ∀ t ∈ n.toks, TokOk t) : NumOk n.val := by
  cases n with
  | exp n b => exact numOk_exp (ht _ (by simp [NumSyn.toks])) hv
  | flex n => exact numOk_flex (ht _ (by simp [NumSyn.toks]))

theorem CmpOp.nums_eq (op : CmpOp) (n : UInteger) : (op.cond n).nums = [n] := by cases op <;> rfl

theorem CondSyn.numsOk {c : CondSyn} (hv : c.valid = true) (ht : ∀ t ∈ c.toks, TokOk t) (hd : ¬ c.BadDate mk) :
    ∀ n ∈ (c.cond mk).nums, NumOk n := by
  have hdate : (∀ n ∈ (c.cond mk).nums, n.bits = 32) → Tok.chr 44 ∈ c.toks → ∀ n ∈ (c.cond mk).nums, NumOk n := by
    intro h32 hm n hn
    have h1 : ¬ (n.val.toNat = 0 ∨ n.val.toNat = 2 ^ 32 - 1) := fun h => hd ⟨hm, n, hn, h⟩
    have h2 := n.val.toNat_lt
    have h3 := h32 n hn
    unfold NumOk
    rw [h3]
    omega
  cases c with
  | cmp op s n =>
    simp only [CondSyn.cond, CmpOp.nums_eq, List.mem_singleton]
    rintro m rfl
    exact NumSyn.numOk hv (fun t h => ht t (by simp [CondSyn.toks, h]))
  | rangeO s lo hi =>
    simp only [CondSyn.valid, Bool.and_eq_true] at hv
    simp only [CondSyn.cond, NumCond.nums, List.mem_cons, List.not_mem_nil, or_false]
    rintro m (rfl | rfl)
    · exact NumSyn.numOk hv.1 (fun t h => ht t (by simp [CondSyn.toks, h]))
    · exact NumSyn.numOk hv.2 (fun t h => ht t (by simp [CondSyn.toks, h]))
  | rangeC s lo hi =>
    simp only [CondSyn.valid, Bool.and_eq_true] at hv
    simp only [CondSyn.cond, NumCond.nums, List.mem_cons, List.not_mem_nil, or_false]
    rintro m (rfl | rfl)
    · exact NumSyn.numOk hv.1 (fun t h => ht t (by simp [CondSyn.toks, h]))
    · exact NumSyn.numOk hv.2 (fun t h => ht t (by simp [CondSyn.toks, h]))
  | date op s m d y => exact hdate (dateCond_bits _ _ _ _ _) (by simp [CondSyn.toks])
  | dateRange s m d1 d2 y => exact hdate (by simp [CondSyn.cond, NumCond.nums]) (by simp [CondSyn.toks])

theorem Expr.eval_ok : ∀ (e : Expr), e.valid = true → (∀ t ∈ e.toks, TokOk t) → e.DatesOk mk → ∀ d : Drv,
    ∃ t d', e.eval mk d = .ok (t, d')
  | .leaf s, _, ht, _, d => leafNode_ok d (name_ne58 (ht (.leaf s) (by simp [Expr.toks])))
  | .cond c, hv, ht, hd, d => compile_ok d _ _ (CondSyn.numsOk hv ht (hd c (by simp [Expr.conds])))
  | .paren e, hv, ht, hd, d => e.eval_ok hv (fun t h => ht t (by simp [Expr.toks, h])) hd d
  | .or l r, hv, ht, hd, d => by
    simp only [Expr.valid, Bool.and_eq_true] at hv
    obtain ⟨t1, d1, h1⟩ := l.eval_ok hv.1 (fun t h => ht t (by simp [Expr.toks, h]))
      (fun c h => hd c (by simp [Expr.conds, h])) d
    obtain ⟨t2, d2, h2⟩ := r.eval_ok hv.2 (fun t h => ht t (by simp [Expr.toks, h]))
      (fun c h => hd c (by simp [Expr.conds, h])) d1
    exact ⟨kof2 1 t1 t2, d2, by simp only [Expr.eval, h1, h2, Res.ok_bind]⟩
  | .and l r, hv, ht, hd, d => by
    simp only [Expr.valid, Bool.and_eq_true] at hv
    obtain ⟨t1, d1, h1⟩ := l.eval_ok hv.1 (fun t h => ht t (by simp [Expr.toks, h]))
      (fun c h => hd c (by simp [Expr.conds, h])) d
    obtain ⟨t2, d2, h2⟩ := r.eval_ok hv.2 (fun t h => ht t (by simp [Expr.toks, h]))
      (fun c h => hd c (by simp [Expr.conds, h])) d1
    exact ⟨kof2 2 t1 t2, d2, by simp only [Expr.eval, h1, h2, Res.ok_bind]⟩

/-! ### The texts of the leaves -/

/-- A text that a leaf of the formula's tree can carry. -/
def Expr.Text (e : Expr) (c : Bytes) : Prop :=
  c ∈ e.plain ∨ ∃ s ∈ e.conds, ∃ w i b, Width w ∧ i < 32 ∧ c = s.base ++ msuf w i b

theorem CondSyn.widths {c : CondSyn} (hv : c.valid = true) : ∀ n ∈ (c.cond mk).nums, Width n.bits := by
  have hn : ∀ n : NumSyn, n.valid = true → Width n.val.bits := by
    intro n h
    cases n with
    | exp n b =>
      obtain ⟨hb, _⟩ := (checkValidBit_iff n b).mp h
      have hb' : b.toNat % 65536 = b.toNat := by rcases hb with h | h | h | h <;> omega
      simp only [NumSyn.val, createExpint, hb']
      exact hb
    | flex n => exact Or.inr (Or.inr (Or.inr rfl))
  have w32 : Width 32 := Or.inr (Or.inr (Or.inr rfl))
  cases c with
  | cmp op s n => simp only [CondSyn.cond, CmpOp.nums_eq, List.mem_singleton]; rintro m rfl; exact hn _ hv
  | rangeO s lo hi =>
    simp only [CondSyn.valid, Bool.and_eq_true] at hv
    simp only [CondSyn.cond, NumCond.nums, List.mem_cons, List.not_mem_nil, or_false]
    rintro m (rfl | rfl)
    · exact hn _ hv.1
    · exact hn _ hv.2
  | rangeC s lo hi =>
    simp only [CondSyn.valid, Bool.and_eq_true] at hv
    simp only [CondSyn.cond, NumCond.nums, List.mem_cons, List.not_mem_nil, or_false]
    rintro m (rfl | rfl)
    · exact hn _ hv.1
    · exact hn _ hv.2
  | date op s m d y => intro n h; rw [dateCond_bits _ _ _ _ _ n h]; exact w32
  | dateRange s m d1 d2 y => intro n h; simp [CondSyn.cond, NumCond.nums] at h; rcases h with rfl | rfl <;> exact w32

theorem Expr.eval_built : ∀ (e : Expr) (d d' : Drv) (t : TNode), e.valid = true → e.eval mk d = .ok (t, d') →
    ∃ cs, Built d t d' cs ∧ ∀ c ∈ cs, e.Text c
  | .leaf s, d, d', t, _, h => ⟨[s], Built.leaf h, by simp [Expr.Text, Expr.plain]⟩
  | .cond c, d, d', t, hv, h => by
    obtain ⟨cs, hb, hm⟩ := compile_built_any (CondSyn.widths hv) h
    exact ⟨cs, hb, fun x hx => Or.inr ⟨c, by simp [Expr.conds], hm x hx⟩⟩
  | .paren e, d, d', t, hv, h => by
    obtain ⟨cs, hb, hm⟩ := e.eval_built d d' t hv h
    exact ⟨cs, hb, hm⟩
  | .or l r, d, d', t, hv, h => by
    simp only [Expr.valid, Bool.and_eq_true] at hv
    simp only [Expr.eval] at h
    obtain ⟨x, hx, h⟩ := (Res.bind_eq_ok _ _ _).mp h
    obtain ⟨y, hy, h⟩ := (Res.bind_eq_ok _ _ _).mp h
    cases h
    obtain ⟨cs1, hb1, hm1⟩ := l.eval_built _ _ _ hv.1 hx
    obtain ⟨cs2, hb2, hm2⟩ := r.eval_built _ _ _ hv.2 hy
    refine ⟨cs1 ++ cs2, Built.gate hb1 hb2 (Or.inl rfl), fun c hc => ?_⟩
    rcases List.mem_append.mp hc with hc | hc
    · rcases hm1 c hc with h | ⟨s, hs, h⟩
      · exact Or.inl (by simp [Expr.plain, h])
      · exact Or.inr ⟨s, by simp [Expr.conds, hs], h⟩
    · rcases hm2 c hc with h | ⟨s, hs, h⟩
      · exact Or.inl (by simp [Expr.plain, h])
      · exact Or.inr ⟨s, by simp [Expr.conds, hs], h⟩
  | .and l r, d, d', t, hv, h => by
    simp only [Expr.valid, Bool.and_eq_true] at hv
    simp only [Expr.eval] at h
    obtain ⟨x, hx, h⟩ := (Res.bind_eq_ok _ _ _).mp h
    obtain ⟨y, hy, h⟩ := (Res.bind_eq_ok _ _ _).mp h
    cases h
    obtain ⟨cs1, hb1, hm1⟩ := l.eval_built _ _ _ hv.1 hx
    obtain ⟨cs2, hb2, hm2⟩ := r.eval_built _ _ _ hv.2 hy
    refine ⟨cs1 ++ cs2, Built.gate hb1 hb2 (Or.inr rfl), fun c hc => ?_⟩
    rcases List.mem_append.mp hc with hc | hc
    · rcases hm1 c hc with h | ⟨s, hs, h⟩
      · exact Or.inl (by simp [Expr.plain, h])
      · exact Or.inr ⟨s, by simp [Expr.conds, hs], h⟩
    · rcases hm2 c hc with h | ⟨s, hs, h⟩
      · exact Or.inl (by simp [Expr.plain, h])
      · exact Or.inr ⟨s, by simp [Expr.conds, hs], h⟩

/-! ### Shape -/

theorem built_shape {d d' : Drv} {t : TNode} {cs : List Bytes} (h : Built d t d' cs) :
    AndOr t ∧ BinAnd t ∧ Fresh t ∧ t.flags.visited = false ∧ ∀ l ∈ leaves t, l.idx.isSome := by
  have hg : ∀ (k : Nat) (l r : TNode), k = 1 ∨ k = 2 →
      (AndOr l ∧ BinAnd l ∧ Fresh l ∧ l.flags.visited = false ∧ ∀ x ∈ leaves l, x.idx.isSome) →
      (AndOr r ∧ BinAnd r ∧ Fresh r ∧ r.flags.visited = false ∧ ∀ x ∈ leaves r, x.idx.isSome) →
      AndOr (kof2 k l r) ∧ BinAnd (kof2 k l r) ∧ Fresh (kof2 k l r) ∧ (kof2 k l r).flags.visited = false ∧
        ∀ x ∈ leaves (kof2 k l r), x.idx.isSome := by
    intro k l r hk ⟨a1, a2, a3, a4, a5⟩ ⟨b1, b2, b3, b4, b5⟩
    refine ⟨?_, ?_, ?_, rfl, ?_⟩
    · rcases hk with rfl | rfl <;> simp [kof2, AndOr, AndOrL, a1, b1]
    · simp [kof2, BinAnd, BinAndL, a2, b2]
    · simp [kof2, Fresh, FreshL, a3, b3, a4, b4]
    · intro x hx
      simp only [kof2, leaves, leavesL, List.append_nil, List.mem_append] at hx
      rcases hx with hx | hx
      · exact a5 x hx
      · exact b5 x hx
  induction h with
  | leaf h =>
    obtain ⟨p, a, i, _, rfl⟩ := leafNode_inv h
    simp [AndOr, BinAnd, Fresh, TNode.flags, leaves]
  | gate _ _ hk ih1 ih2 => exact hg _ _ _ hk ih1 ih2
  | gateR _ _ hk ih1 ih2 => exact hg _ _ _ hk ih2 ih1

/-! ### Numbering -/

/-- How often the text has been used. -/
def cnt (d : Drv) (c : Bytes) : Nat := (SMap.find c d.attrCount).getD 0

/-- The leaf for the text `x.1` with index `x.2`. -/
def IsLeafOf (x : Bytes × Nat) (l : Leaf) : Prop :=
  checkAttribute x.1 = .ok (l.pre, l.lab) ∧ l.idx = some x.2

/-- Texts and indices of the leaves of a tree built by the driver. -/
def NumberedBy (d : Drv) (t : TNode) (d' : Drv) (L : List (Bytes × Nat)) : Prop :=
  List.Forall₂ IsLeafOf L (leaves t) ∧ L.Nodup ∧ (∀ x ∈ L, cnt d x.1 ≤ x.2 ∧ x.2 < cnt d' x.1) ∧
    (∀ c, cnt d c ≤ cnt d' c) ∧ (∀ c ∈ d.attrDup, c ∈ d'.attrDup) ∧ (∀ x ∈ L, 1 ≤ x.2 → x.1 ∈ d'.attrDup)

theorem mem_sinsert {k x : Bytes} : ∀ {s : List Bytes}, x ∈ sinsert k s ↔ x = k ∨ x ∈ s
  | [] => by simp [sinsert]
  | a :: s => by
    simp only [sinsert]
    split
    · simp
    · split
      · rename_i h
        subst h
        constructor
        · exact Or.inr
        · rintro (rfl | h)
          · simp
          · exact h
      · simp only [List.mem_cons, mem_sinsert]
        constructor
        · rintro (h | h | h) <;> simp [h]
        · rintro (h | h | h) <;> simp [h]

theorem leafNode_numbered {d d' : Drv} {c : Bytes} {t : TNode} (h : leafNode d c = .ok (t, d')) :
    NumberedBy d t d' [(c, cnt d c)] ∧ ∀ c', cnt d' c' = cnt d c' + [c].count c' := by
  unfold leafNode at h
  obtain ⟨pa, hpa, hh⟩ := (Res.bind_eq_ok _ _ _).mp h
  clear h
  cases hf : SMap.find c d.attrCount with
  | none =>
    have hc0 : cnt d c = 0 := by simp [cnt, hf]
    rw [hf] at hh
    simp only [Res.ok.injEq, Prod.mk.injEq] at hh
    obtain ⟨rfl, hh⟩ := hh
    have hac : d'.attrCount = SMap.insert c 1 d.attrCount := by rw [← hh]; split <;> rfl
    have had : d'.attrDup = d.attrDup := by rw [← hh]; split <;> rfl
    have hcnt : ∀ c', cnt d' c' = cnt d c' + [c].count c' := by
      intro c'
      by_cases e : c' = c
      · subst e
        simp [cnt, hac, SMap.find_insert, hf]
      · have e' : ¬ c = c' := fun h => e h.symm
        simp [cnt, hac, SMap.find_insert, e, e', List.count_cons]
    refine ⟨⟨?_, by simp, ?_, fun c' => by rw [hcnt]; omega, fun c' h' => by rw [had]; exact h', ?_⟩, hcnt⟩
    · simp [leaves, IsLeafOf, hpa, hc0]
    · intro x hx
      simp at hx
      subst hx
      rw [hcnt]; simp
    · intro x hx h1
      simp at hx
      subst hx
      simp [hc0] at h1
  | some n =>
    have hc0 : cnt d c = n := by simp [cnt, hf]
    rw [hf] at hh
    simp only [Res.ok.injEq, Prod.mk.injEq] at hh
    obtain ⟨rfl, hh⟩ := hh
    have hac : d'.attrCount = SMap.insert c (n + 1) d.attrCount := by rw [← hh]; split <;> rfl
    have had : d'.attrDup = sinsert c d.attrDup := by rw [← hh]; split <;> rfl
    have hcnt : ∀ c', cnt d' c' = cnt d c' + [c].count c' := by
      intro c'
      by_cases e : c' = c
      · subst e
        simp [cnt, hac, SMap.find_insert, hf]
      · have e' : ¬ c = c' := fun h => e h.symm
        simp [cnt, hac, SMap.find_insert, e, e', List.count_cons]
    refine ⟨⟨?_, by simp, ?_, fun c' => by rw [hcnt]; omega, fun c' h' => by rw [had, mem_sinsert]; exact Or.inr h', ?_⟩, hcnt⟩
    · simp [leaves, IsLeafOf, hpa, hc0]
    · intro x hx
      simp at hx
      subst hx
      rw [hcnt]; simp
    · intro x hx h1
      simp at hx
      subst hx
      rw [had, mem_sinsert]; exact Or.inl rfl

theorem forall₂_append {α β : Type} {R : α → β → Prop} : ∀ {a : List α} {b : List β} {c : List α} {d : List β},
    List.Forall₂ R a b → List.Forall₂ R c d → List.Forall₂ R (a ++ c) (b ++ d)
  | _, _, _, _, .nil, h => h
  | _, _, _, _, .cons h1 h2, h => .cons h1 (forall₂_append h2 h)

theorem built_numbered {d d' : Drv} {t : TNode} {cs : List Bytes} (h : Built d t d' cs) :
    (∃ L, NumberedBy d t d' L ∧ (L.map Prod.fst).Perm cs) ∧ ∀ c, cnt d' c = cnt d c + cs.count c := by
  have disj : ∀ {d d1 d2 : Drv} {t1 t2 : TNode} {L1 L2 : List (Bytes × Nat)}, NumberedBy d t1 d1 L1 →
      NumberedBy d1 t2 d2 L2 → ∀ x ∈ L1, ∀ y ∈ L2, x ≠ y := by
    intro d d1 d2 t1 t2 L1 L2 h1 h2 x hx y hy e
    subst e
    have := (h1.2.2.1 x hx).2
    have := (h2.2.2.1 x hy).1
    omega
  induction h with
  | leaf h =>
    have := leafNode_numbered h
    exact ⟨⟨_, this.1, by simp⟩, this.2⟩
  | @gate d l d1 r d2 cs1 cs2 k h1 h2 hk ih1 ih2 =>
    obtain ⟨⟨L1, n1, p1⟩, c1⟩ := ih1
    obtain ⟨⟨L2, n2, p2⟩, c2⟩ := ih2
    refine ⟨⟨L1 ++ L2, ⟨?_, ?_, ?_, fun c => Nat.le_trans (n1.2.2.2.1 c) (n2.2.2.2.1 c),
      fun c hc => n2.2.2.2.2.1 c (n1.2.2.2.2.1 c hc), ?_⟩, ?_⟩, ?_⟩
    · simp only [kof2, leaves, leavesL, List.append_nil]
      exact forall₂_append n1.1 n2.1
    · exact List.nodup_append.mpr ⟨n1.2.1, n2.2.1, disj n1 n2⟩
    · intro x hx
      rcases List.mem_append.mp hx with hx | hx
      · have h1 := n1.2.2.1 x hx; have h2 := n2.2.2.2.1 x.1; omega
      · have h1 := n2.2.2.1 x hx; have h2 := n1.2.2.2.1 x.1; omega
    · intro x hx h1
      rcases List.mem_append.mp hx with hx | hx
      · exact n2.2.2.2.2.1 _ (n1.2.2.2.2.2 x hx h1)
      · exact n2.2.2.2.2.2 x hx h1
    · rw [List.map_append]; exact p1.append p2
    · intro c; rw [c2, c1, List.count_append]; omega
  | @gateR d r d1 l d2 cs1 cs2 k h1 h2 hk ih1 ih2 =>
    obtain ⟨⟨L1, n1, p1⟩, c1⟩ := ih1
    obtain ⟨⟨L2, n2, p2⟩, c2⟩ := ih2
    refine ⟨⟨L2 ++ L1, ⟨?_, ?_, ?_, fun c => Nat.le_trans (n1.2.2.2.1 c) (n2.2.2.2.1 c),
      fun c hc => n2.2.2.2.2.1 c (n1.2.2.2.2.1 c hc), ?_⟩, ?_⟩, ?_⟩
    · simp only [kof2, leaves, leavesL, List.append_nil]
      exact forall₂_append n2.1 n1.1
    · exact List.nodup_append.mpr ⟨n2.2.1, n1.2.1, fun x hx y hy e => disj n1 n2 y hy x hx e.symm⟩
    · intro x hx
      rcases List.mem_append.mp hx with hx | hx
      · have h1 := n2.2.2.1 x hx; have h2 := n1.2.2.2.1 x.1; omega
      · have h1 := n1.2.2.1 x hx; have h2 := n2.2.2.2.1 x.1; omega
    · intro x hx h1
      rcases List.mem_append.mp hx with hx | hx
      · exact n2.2.2.2.2.2 x hx h1
      · exact n2.2.2.2.2.1 _ (n1.2.2.2.2.2 x hx h1)
    · rw [List.map_append]; exact (List.perm_append_comm.trans (p1.append p2))
    · intro c; rw [c2, c1, List.count_append]; omega

theorem find_dupInfo (count : SMap Nat) (c : Bytes) : ∀ l : List Bytes,
    (SMap.find c (dupInfo count l)).isSome ↔ c ∈ l
  | [] => by simp [dupInfo]
  | k :: ks => by
    simp only [dupInfo, SMap.find_insert]
    split
    · rename_i h; simp [h]
    · rename_i h
      rw [find_dupInfo count c ks]
      simp [h]

/-- Labels are the texts when the texts have no empty parts. -/
theorem leafOf_label {x : Bytes × Nat} {l : Leaf} (hc : canonAux true x.1 = true) (h : IsLeafOf x l) :
    l.label = x.1 := by
  obtain ⟨p, a, h1, h2⟩ := checkAttribute_canon hc
  have := h.1
  rw [h1] at this
  cases this
  exact h2

theorem forall₂_length {α β : Type} {R : α → β → Prop} : ∀ {L : List α} {M : List β}, List.Forall₂ R L M →
    L.length = M.length
  | _, _, .nil => rfl
  | _, _, .cons _ h => by simp [forall₂_length h]

theorem forall₂_mem_right {α β : Type} {R : α → β → Prop} : ∀ {L : List α} {M : List β}, List.Forall₂ R L M →
    ∀ y ∈ M, ∃ x ∈ L, R x y
  | _, _, .nil, y, hy => by cases hy
  | _, _, .cons (a := a) (b := b) h1 h2, y, hy => by
    rcases List.mem_cons.mp hy with rfl | hy
    · exact ⟨a, by simp, h1⟩
    · obtain ⟨x, hx, hr⟩ := forall₂_mem_right h2 y hy
      exact ⟨x, by simp [hx], hr⟩

theorem pairwise_of_forall₂ {α β : Type} {R : α → β → Prop} {P : α → α → Prop} {Q : β → β → Prop} :
    ∀ {L : List α} {M : List β}, List.Forall₂ R L M →
      (∀ x ∈ L, ∀ y ∈ L, ∀ a b, R x a → R y b → P x y → Q a b) → L.Pairwise P → M.Pairwise Q
  | _, _, .nil, _, _ => by simp
  | _, _, .cons (a := a) (b := b) (l₁ := L) (l₂ := M) h1 h2, h, hp => by
    rw [List.pairwise_cons] at hp ⊢
    refine ⟨fun y hy => ?_, pairwise_of_forall₂ h2 (fun x hx y hy => h x (by simp [hx]) y (by simp [hy])) hp.2⟩
    obtain ⟨x, hx, hr⟩ := forall₂_mem_right h2 y hy
    exact h a (by simp) x (by simp [hx]) b y h1 hr (hp.1 x hx)

theorem numbered_of_built {d d' : Drv} {t : TNode} {cs : List Bytes} (h : Built d t d' cs)
    (hc : ∀ c ∈ cs, canonAux true c = true) :
    Numbered (dupInfo d'.attrCount d'.attrDup) (leaves t) ∧ (leaves t).map Leaf.label ⊆ cs ∧
      (leaves t).length = cs.length := by
  obtain ⟨⟨L, hn, hp⟩, _⟩ := built_numbered h
  have hcL : ∀ x ∈ L, canonAux true x.1 = true :=
    fun x hx => hc _ (hp.subset (List.mem_map_of_mem (f := Prod.fst) hx))
  refine ⟨?_, ?_, ?_⟩
  · refine pairwise_of_forall₂ (P := (· ≠ ·)) hn.1 ?_ hn.2.1
    intro x hx y hy a b ha hb hne hl
    rw [leafOf_label (hcL x hx) ha, leafOf_label (hcL y hy) hb] at hl
    rw [leafOf_label (hcL x hx) ha, ha.2, hb.2]
    have hi : x.2 ≠ y.2 := fun h => hne (Prod.ext hl h)
    refine ⟨(find_dupInfo _ _ _).mpr ?_, by simpa using hi⟩
    by_cases h1 : 1 ≤ x.2
    · exact hn.2.2.2.2.2 x hx h1
    · rw [hl]; exact hn.2.2.2.2.2 y hy (by omega)
  · intro l hl
    obtain ⟨lf, hlf, rfl⟩ := List.mem_map.mp hl
    obtain ⟨x, hx, hr⟩ := forall₂_mem_right hn.1 lf hlf
    rw [leafOf_label (hcL x hx) hr]
    exact hp.subset (List.mem_map_of_mem (f := Prod.fst) hx)
  · rw [← forall₂_length hn.1, ← hp.length_eq, List.length_map]

/-! ### Names -/

theorem canonAux_of_noDbl : ∀ (s : Bytes) (p : Bool), noDbl p s = true → s.getLast? ≠ some 58 → (s = [] → p = false) →
    canonAux p s = true
  | [], p, _, _, h => by simp [canonAux, h]
  | c :: cs, p, h1, h2, _ => by
    have h2' : cs ≠ [] → cs.getLast? ≠ some 58 := by
      intro hne
      cases cs with
      | nil => exact absurd rfl hne
      | cons x xs => simpa [List.getLast?_cons_cons] using h2
    by_cases hc : c = 58
    · subst hc
      simp only [noDbl, if_true, Bool.and_eq_true] at h1
      simp only [canonAux, if_true, h1.1, Bool.true_and]
      cases cs with
      | nil => simp at h2
      | cons x xs => exact canonAux_of_noDbl (x :: xs) true h1.2 (h2' (by simp)) (by simp)
    · simp only [noDbl, if_neg hc] at h1
      simp only [canonAux, if_neg hc]
      cases cs with
      | nil => rfl
      | cons x xs => exact canonAux_of_noDbl (x :: xs) false h1 (h2' (by simp)) (by simp)

theorem PlainOk.canon {s : Bytes} (h : PlainOk s) (h0 : s ≠ []) : canonAux true s = true :=
  canonAux_of_noDbl s true h.1.noDbl h.2 (fun e => absurd e h0)

theorem name_ne_nil {s : Bytes} (h : isName s = true) : s ≠ [] := by
  rintro rfl; cases h

theorem Expr.plain_toks : ∀ e : Expr, ∀ s ∈ e.plain, Tok.leaf s ∈ e.toks
  | .leaf s => by simp [Expr.plain, Expr.toks]
  | .cond c => by simp [Expr.plain]
  | .paren e => fun s hs => by simp [Expr.toks, e.plain_toks s hs]
  | .or l r => fun s hs => by
    simp only [Expr.plain, List.mem_append] at hs
    rcases hs with hs | hs
    · simp [Expr.toks, l.plain_toks s hs]
    · simp [Expr.toks, r.plain_toks s hs]
  | .and l r => fun s hs => by
    simp only [Expr.plain, List.mem_append] at hs
    rcases hs with hs | hs
    · simp [Expr.toks, l.plain_toks s hs]
    · simp [Expr.toks, r.plain_toks s hs]

theorem Expr.text_canon {e : Expr} (ht : ∀ t ∈ e.toks, TokOk t) (hn : e.NamesOk) {c : Bytes} (h : e.Text c) :
    canonAux true c = true := by
  rcases h with h | ⟨s, hs, w, i, b, hw, hi, rfl⟩
  · exact (hn.1 c h).canon (name_ne_nil (ht _ (e.plain_toks c h)))
  · have := msuf_facts w hw.mem i hi b
    exact canonAux_append this.1 this.2 _ true (hn.2 s hs).noDbl

/-! ### Meaning -/

theorem cond_sat {A : List Bytes} {num : Bytes → Option (UInt32 × Nat)} {base : Bytes} (hb : NameOk base)
    (hA : Assigns A num base) {c : NumCond} (hn : ∀ n ∈ c.nums, NumOk n) {d d' : Drv} {t : TNode}
    (h : c.compile d base = .ok (t, d')) :
    sat A t = true ↔ ∃ v w, num base = some (v, w) ∧ (∀ n ∈ c.nums, n.bits = w) ∧ c.holds v.toNat := by
  unfold Assigns at hA
  cases hnum : num base with
  | none =>
    rw [hnum] at hA
    obtain ⟨cs, hbt, hm⟩ := compile_built_any (fun n hh => (hn n hh).1) h
    have : sat A t = false := by
      apply built_unsat hbt
      intro s hs
      obtain ⟨w, i, b, hw, hi, rfl⟩ := hm s hs
      have hf := msuf_facts w hw.mem i hi b
      refine ⟨canonAux_append hf.1 hf.2 base true hb.noDbl, fun hmem => ?_⟩
      apply hA _ hmem
      simp only [msuf, List.append_assoc]
      exact ⟨_, by simp only [List.append_assoc]; rfl⟩
    simp [this]
  | some vw =>
    obtain ⟨v, w⟩ := vw
    rw [hnum] at hA
    obtain ⟨hw, hv, hg⟩ := hA
    have hred : (∃ v' w', some (v, w) = some (v', w') ∧ (∀ n ∈ c.nums, n.bits = w') ∧ c.holds v'.toNat) ↔
        (∀ n ∈ c.nums, n.bits = w) ∧ c.holds v.toNat := by
      constructor
      · rintro ⟨v', w', e, h1, h2⟩; cases e; exact ⟨h1, h2⟩
      · rintro ⟨h1, h2⟩; exact ⟨v, w, rfl, h1, h2⟩
    rw [hred]
    by_cases hall : ∀ n ∈ c.nums, n.bits = w
    · have key : ∀ {P : Prop}, (∃ t d', c.compile d base = .ok (t, d') ∧ (sat A t = true ↔ P)) → (sat A t = true ↔ P) := by
        rintro P ⟨t', d'', h', hs⟩
        rw [h] at h'; cases h'; exact hs
      rw [and_iff_right hall]
      cases c with
      | lt n =>
        have e : n.bits = w := hall n (by simp [NumCond.nums]); subst e
        exact key (C19_less_than d base hb n (hn n (by simp [NumCond.nums])) A v hv hg)
      | gt n =>
        have e : n.bits = w := hall n (by simp [NumCond.nums]); subst e
        exact key (C20_greater_than d base hb n (hn n (by simp [NumCond.nums])) A v hv hg)
      | le n =>
        have e : n.bits = w := hall n (by simp [NumCond.nums]); subst e
        exact key (C21_at_most d base hb n (hn n (by simp [NumCond.nums])) A v hv hg)
      | ge n =>
        have e : n.bits = w := hall n (by simp [NumCond.nums]); subst e
        exact key (C21_at_least d base hb n (hn n (by simp [NumCond.nums])) A v hv hg)
      | eq n =>
        have e : n.bits = w := hall n (by simp [NumCond.nums]); subst e
        have := key (C22_equal d base hb n (hn n (by simp [NumCond.nums])) A v hv hg)
        rw [this, ← UInt32.toNat_inj]; rfl
      | inOpen lo hi =>
        have e : lo.bits = w := hall lo (by simp [NumCond.nums]); subst e
        have e' : hi.bits = lo.bits := hall hi (by simp [NumCond.nums])
        exact key (C23_open_range d base hb lo hi (hn lo (by simp [NumCond.nums])) (hn hi (by simp [NumCond.nums])) e' A v hv hg)
      | inClosed lo hi =>
        have e : lo.bits = w := hall lo (by simp [NumCond.nums]); subst e
        have e' : hi.bits = lo.bits := hall hi (by simp [NumCond.nums])
        exact key (C23_closed_range d base hb lo hi (hn lo (by simp [NumCond.nums])) (hn hi (by simp [NumCond.nums])) e' A v hv hg)
    · have hf : sat A t = false := by
        have one : ∀ n, c.nums = [n] → sat A t = false := by
          intro n hc
          refine C24_width_mismatch d base hb c n.bits w (hn n (by simp [hc])).1 hw ?_ (by simp [hc]) A v hv hg t d' h
          intro e
          apply hall
          simp [hc, e]
        have two : ∀ lo hi, c.nums = [lo, hi] → lo.bits = hi.bits → sat A t = false := by
          intro lo hi hc e
          refine C24_width_mismatch d base hb c lo.bits w (hn lo (by simp [hc])).1 hw ?_ (by simp [hc, e]) A v hv hg t d' h
          intro e'
          apply hall
          simp [hc, e', ← e]
        cases c with
        | lt n => exact one n rfl
        | gt n => exact one n rfl
        | le n => exact one n rfl
        | ge n => exact one n rfl
        | eq n => exact one n rfl
        | inOpen lo hi =>
          by_cases e : lo.bits = hi.bits
          · exact two lo hi rfl e
          · exact C24_mixed_range d base hb lo hi (hn lo (by simp [NumCond.nums])).1 (hn hi (by simp [NumCond.nums])).1
              e false w hw A v hv hg t d' h
        | inClosed lo hi =>
          by_cases e : lo.bits = hi.bits
          · exact two lo hi rfl e
          · exact C24_mixed_range d base hb lo hi (hn lo (by simp [NumCond.nums])).1 (hn hi (by simp [NumCond.nums])).1
              e true w hw A v hv hg t d' h
      simp [hf, hall]

theorem Expr.eval_sat {A : List Bytes} {num : Bytes → Option (UInt32 × Nat)} : ∀ (e : Expr) (d d' : Drv) (t : TNode),
    e.valid = true → (∀ t ∈ e.toks, TokOk t) → e.DatesOk mk → e.NamesOk → (∀ c ∈ e.conds, Assigns A num c.base) →
    e.eval mk d = .ok (t, d') → (sat A t = true ↔ e.holds mk (· ∈ A) num)
  | .leaf s, d, d', t, _, ht, _, hn, _, h => by
    have hs : canonAux true s = true :=
      (hn.1 s (by simp [Expr.plain])).canon (name_ne_nil (ht (.leaf s) (by simp [Expr.toks])))
    rw [leafNode_canon_sat hs h]
    simp [Expr.holds]
  | .cond c, d, d', t, hv, ht, hd, hn, hA, h =>
    cond_sat (hn.2 c (by simp [Expr.conds])) (hA c (by simp [Expr.conds]))
      (CondSyn.numsOk hv ht (hd c (by simp [Expr.conds]))) h
  | .paren e, d, d', t, hv, ht, hd, hn, hA, h =>
    e.eval_sat d d' t hv (fun t h => ht t (by simp [Expr.toks, h])) hd hn hA h
  | .or l r, d, d', t, hv, ht, hd, hn, hA, h => by
    simp only [Expr.valid, Bool.and_eq_true] at hv
    simp only [Expr.eval] at h
    obtain ⟨x, hx, h⟩ := (Res.bind_eq_ok _ _ _).mp h
    obtain ⟨y, hy, h⟩ := (Res.bind_eq_ok _ _ _).mp h
    cases h
    have i1 := l.eval_sat d x.2 x.1 hv.1 (fun t h => ht t (by simp [Expr.toks, h])) (fun c h => hd c (by simp [Expr.conds, h]))
      ⟨fun s h => hn.1 s (by simp [Expr.plain, h]), fun s h => hn.2 s (by simp [Expr.conds, h])⟩ (fun c h => hA c (by simp [Expr.conds, h])) hx
    have i2 := r.eval_sat x.2 y.2 y.1 hv.2 (fun t h => ht t (by simp [Expr.toks, h])) (fun c h => hd c (by simp [Expr.conds, h]))
      ⟨fun s h => hn.1 s (by simp [Expr.plain, h]), fun s h => hn.2 s (by simp [Expr.conds, h])⟩ (fun c h => hA c (by simp [Expr.conds, h])) hy
    rw [sat_kof2_one, Bool.or_eq_true, i1, i2]
    rfl
  | .and l r, d, d', t, hv, ht, hd, hn, hA, h => by
    simp only [Expr.valid, Bool.and_eq_true] at hv
    simp only [Expr.eval] at h
    obtain ⟨x, hx, h⟩ := (Res.bind_eq_ok _ _ _).mp h
    obtain ⟨y, hy, h⟩ := (Res.bind_eq_ok _ _ _).mp h
    cases h
    have i1 := l.eval_sat d x.2 x.1 hv.1 (fun t h => ht t (by simp [Expr.toks, h])) (fun c h => hd c (by simp [Expr.conds, h]))
      ⟨fun s h => hn.1 s (by simp [Expr.plain, h]), fun s h => hn.2 s (by simp [Expr.conds, h])⟩ (fun c h => hA c (by simp [Expr.conds, h])) hx
    have i2 := r.eval_sat x.2 y.2 y.1 hv.2 (fun t h => ht t (by simp [Expr.toks, h])) (fun c h => hd c (by simp [Expr.conds, h]))
      ⟨fun s h => hn.1 s (by simp [Expr.plain, h]), fun s h => hn.2 s (by simp [Expr.conds, h])⟩ (fun c h => hA c (by simp [Expr.conds, h])) hy
    rw [sat_kof2_two, Bool.and_eq_true, i1, i2]
    rfl

/-! ### The policy object -/

/-- What `createPolicyTree` returns for a text of the grammar. -/
theorem createPolicyTree_ok (mk : Mktime) {s : Bytes} {e : Expr} (hc : e.canon = true) (hv : e.valid = true)
    (he : effective (lex s) = e.toks) (hd : e.DatesOk mk) :
    ∃ t d' p, createPolicyTree mk s = .ok (some p) ∧ e.eval mk { input := s } = .ok (t, d') ∧ p.root = some t ∧
      p.hasDup = decide (d'.attrDup ≠ []) ∧ p.dupCount = dupInfo d'.attrCount d'.attrDup ∧
      p.completeSet = SMap.keys d'.attrCount ∧ p.prefixSet = d'.attrPrefix ∧ p.compact = s ∧ p.revocation = false ∧
      (∀ t ∈ e.toks, TokOk t) := by
  have hs : s ≠ [] := by
    rintro rfl
    rw [lex_nil] at he
    have : e.toks ≠ [] := by
      intro h
      have := e.steps_le
      rw [h] at this
      simp at this
    exact this he.symm
  have ht : ∀ t ∈ e.toks, TokOk t := by
    intro t ht
    rw [← he] at ht
    exact tokOk_of_lex (List.takeWhile_subset _ ht)
  obtain ⟨t, d', h⟩ := e.eval_ok hv ht hd { input := s }
  obtain ⟨cs, hb, _⟩ := e.eval_built _ _ _ hv h
  have hin := (built_same hb).2.2.2
  let p : Policy := { root := some t, hasDup := decide (d'.attrDup ≠ []), dupCount := dupInfo d'.attrCount d'.attrDup, completeSet := SMap.keys d'.attrCount, prefixSet := d'.attrPrefix, compact := d'.input }
  refine ⟨t, d', p, ?_, h, rfl, rfl, rfl, rfl, rfl, hin, rfl, ht⟩
  unfold createPolicyTree
  rw [if_neg hs, parseString_policy hc hv s he, h]
  rfl

end Abe
