import Verif.Proof.HashAttr
import Verif.Props.Parser
import Verif.Props.Bytes
/-!
# Hashing attributes (C68)

`H` is BLAKE2s with 9 bytes of output, arbitrary. The positive theorem needs names that are not parts of other words of
the text or of hashes; without that, hashing changes what is satisfied.
-/
set_option linter.unusedSimpArgs false
set_option linter.unusedSectionVars false
set_option autoImplicit false
namespace Abe
variable {mk : Mktime}
open TextEx

/-! ### Renaming -/

/-- The formula with other names for the plain attributes. -/
def Expr.rename (f : Bytes → Bytes) : Expr → Expr
  | .leaf s => .leaf (f s)
  | .cond c => .cond c
  | .paren e => .paren (e.rename f)
  | .or l r => .or (l.rename f) (r.rename f)
  | .and l r => .and (l.rename f) (r.rename f)

/-- The item with another name, if it is a plain attribute. -/
def Item.rename (f : Bytes → Bytes) : Item → Item
  | .leaf s => .leaf (f s)
  | i => i

/-- The list with other names for the plain attributes. -/
def AExpr.rename (f : Bytes → Bytes) : AExpr → AExpr
  | .item i => .item (i.rename f)
  | .pre a => .pre (a.rename f)
  | .post a => .post (a.rename f)
  | .cat a b => .cat (a.rename f) (b.rename f)

/-- The plain attributes of a list. -/
def AExpr.plain (a : AExpr) : List Bytes := a.items.filterMap fun | .leaf s => some s | _ => none

theorem AExpr.mem_plain {a : AExpr} {s : Bytes} : s ∈ a.plain ↔ Item.leaf s ∈ a.items := by
  simp only [AExpr.plain, List.mem_filterMap]
  constructor
  · rintro ⟨i, hi, h⟩
    cases i with
    | leaf t => simp at h; subst h; exact hi
    | num => simp at h
    | date => simp at h
  · intro h; exact ⟨_, h, rfl⟩

theorem NumSyn.toks_fix (f : Bytes → Bytes) (n : NumSyn) : n.toks.map (Tok.mapName f) = n.toks := by cases n <;> rfl

theorem CondSyn.toks_fix {f : Bytes → Bytes} {c : CondSyn} (h : ∀ s, Tok.leaf s ∈ c.toks → f s = s) :
    c.toks.map (Tok.mapName f) = c.toks := by
  rw [List.map_congr_left (g := id), List.map_id]
  intro t ht
  cases t with
  | leaf s => exact congrArg Tok.leaf (h s ht)
  | _ => rfl

theorem Item.toks_rename {f : Bytes → Bytes} {i : Item} (h : ∀ s, i ≠ .leaf s → Tok.leaf s ∈ i.toks → f s = s) :
    (i.rename f).toks = i.toks.map (Tok.mapName f) := by
  cases i with
  | leaf s => rfl
  | num s n =>
    rw [List.map_congr_left (g := id), List.map_id]; · rfl
    intro t ht
    cases t with
    | leaf s' => exact congrArg Tok.leaf (h s' (by simp) ht)
    | _ => rfl
  | date s m d y =>
    rw [List.map_congr_left (g := id), List.map_id]; · rfl
    intro t ht
    cases t with
    | leaf s' => exact congrArg Tok.leaf (h s' (by simp) ht)
    | _ => rfl

theorem Expr.toks_rename {f : Bytes → Bytes} : ∀ {e : Expr}, (∀ c ∈ e.conds, ∀ s, Tok.leaf s ∈ c.toks → f s = s) →
    (e.rename f).toks = e.toks.map (Tok.mapName f)
  | .leaf s, _ => rfl
  | .cond c, h => (CondSyn.toks_fix (h c (by simp [Expr.conds]))).symm
  | .paren e, h => by
    simp only [Expr.rename, Expr.toks, List.map_cons, List.map_append, List.map_nil, Tok.mapName]
    rw [Expr.toks_rename (e := e) h]
  | .or l r, h => by
    simp only [Expr.rename, Expr.toks, List.map_cons, List.map_append, List.map_nil, Tok.mapName]
    rw [Expr.toks_rename (fun c hc => h c (by simp [Expr.conds, hc])), Expr.toks_rename (fun c hc => h c (by simp [Expr.conds, hc]))]
  | .and l r, h => by
    simp only [Expr.rename, Expr.toks, List.map_cons, List.map_append, List.map_nil, Tok.mapName]
    rw [Expr.toks_rename (fun c hc => h c (by simp [Expr.conds, hc])), Expr.toks_rename (fun c hc => h c (by simp [Expr.conds, hc]))]

theorem Expr.rename_conds (f : Bytes → Bytes) : ∀ e : Expr, (e.rename f).conds = e.conds
  | .leaf _ => rfl
  | .cond _ => rfl
  | .paren e => e.rename_conds f
  | .or l r => by simp [Expr.rename, Expr.conds, l.rename_conds f, r.rename_conds f]
  | .and l r => by simp [Expr.rename, Expr.conds, l.rename_conds f, r.rename_conds f]

theorem Expr.rename_plain (f : Bytes → Bytes) : ∀ e : Expr, (e.rename f).plain = e.plain.map f
  | .leaf _ => rfl
  | .cond _ => rfl
  | .paren e => e.rename_plain f
  | .or l r => by simp [Expr.rename, Expr.plain, l.rename_plain f, r.rename_plain f]
  | .and l r => by simp [Expr.rename, Expr.plain, l.rename_plain f, r.rename_plain f]

theorem Expr.rename_shape (f : Bytes → Bytes) : ∀ e : Expr, (e.rename f).valid = e.valid ∧ (e.rename f).canon = e.canon ∧
    (e.rename f).isOr = e.isOr ∧ (e.rename f).isAnd = e.isAnd
  | .leaf _ => ⟨rfl, rfl, rfl, rfl⟩
  | .cond _ => ⟨rfl, rfl, rfl, rfl⟩
  | .paren e => ⟨(e.rename_shape f).1, (e.rename_shape f).2.1, rfl, rfl⟩
  | .or l r => by
    obtain ⟨a1, a2, a3, a4⟩ := l.rename_shape f
    obtain ⟨b1, b2, b3, b4⟩ := r.rename_shape f
    exact ⟨by simp [Expr.rename, Expr.valid, a1, b1], by simp [Expr.rename, Expr.canon, a2, b2, b3], rfl, rfl⟩
  | .and l r => by
    obtain ⟨a1, a2, a3, a4⟩ := l.rename_shape f
    obtain ⟨b1, b2, b3, b4⟩ := r.rename_shape f
    exact ⟨by simp [Expr.rename, Expr.valid, a1, b1], by simp [Expr.rename, Expr.canon, a2, b2, a3, b3, b4], rfl, rfl⟩

theorem AExpr.rename_items (f : Bytes → Bytes) : ∀ a : AExpr, (a.rename f).items = a.items.map (Item.rename f)
  | .item _ => rfl
  | .pre a => a.rename_items f
  | .post a => a.rename_items f
  | .cat a b => by simp [AExpr.rename, AExpr.items, a.rename_items f, b.rename_items f]

theorem AExpr.rename_shape (f : Bytes → Bytes) : ∀ a : AExpr, (a.rename f).valid = a.valid ∧ (a.rename f).canon = a.canon ∧
    (a.rename f).isItem = a.isItem
  | .item i => ⟨by cases i <;> rfl, rfl, rfl⟩
  | .pre a => ⟨(a.rename_shape f).1, (a.rename_shape f).2.1, rfl⟩
  | .post a => ⟨(a.rename_shape f).1, (a.rename_shape f).2.2, rfl⟩
  | .cat a b => by
    obtain ⟨a1, a2, a3⟩ := a.rename_shape f
    obtain ⟨b1, b2, b3⟩ := b.rename_shape f
    exact ⟨by simp [AExpr.rename, AExpr.valid, a1, b1], by simp [AExpr.rename, AExpr.canon, b2, a3], rfl⟩

theorem AExpr.toks_rename {f : Bytes → Bytes} : ∀ {a : AExpr},
    (∀ i ∈ a.items, ∀ s, i ≠ .leaf s → Tok.leaf s ∈ i.toks → f s = s) →
    (a.rename f).toks = a.toks.map (Tok.mapName f)
  | .item i, h => Item.toks_rename (h i (by simp [AExpr.items]))
  | .pre a, h => by
    simp only [AExpr.rename, AExpr.toks, List.map_cons, Tok.mapName]
    rw [AExpr.toks_rename (a := a) h]
  | .post a, h => by
    simp only [AExpr.rename, AExpr.toks, List.map_cons, List.map_append, List.map_nil, Tok.mapName]
    rw [AExpr.toks_rename (a := a) h]
  | .cat a b, h => by
    simp only [AExpr.rename, AExpr.toks, List.map_cons, List.map_append, List.map_nil, Tok.mapName]
    rw [AExpr.toks_rename (a := a) (fun i hi => h i (by simp [AExpr.items, hi])),
      AExpr.toks_rename (a := b) (fun i hi => h i (by simp [AExpr.items, hi]))]

theorem Item.value_rename (f : Bytes → Bytes) (i : Item) : (i.rename f).value mk = i.value mk := by cases i <;> rfl

theorem itemsNum_rename (f : Bytes → Bytes) (is : List Item) :
    itemsNum mk (is.map (Item.rename f)) = itemsNum mk is := by
  funext base
  unfold itemsNum
  rw [List.findSome?_map]
  congr 1
  funext i
  simp only [Function.comp, Item.value_rename]

theorem Expr.holds_rename {f : Bytes → Bytes} {has has' : Bytes → Prop} {num : Bytes → Option (UInt32 × Nat)} :
    ∀ {e : Expr}, (∀ s ∈ e.plain, has' (f s) ↔ has s) → ((e.rename f).holds mk has' num ↔ e.holds mk has num)
  | .leaf s, h => h s (by simp [Expr.plain])
  | .cond c, _ => Iff.rfl
  | .paren e, h => Expr.holds_rename (e := e) h
  | .or l r, h => or_congr (Expr.holds_rename (e := l) (fun s hs => h s (by simp [Expr.plain, hs])))
      (Expr.holds_rename (e := r) (fun s hs => h s (by simp [Expr.plain, hs])))
  | .and l r, h => and_congr (Expr.holds_rename (e := l) (fun s hs => h s (by simp [Expr.plain, hs])))
      (Expr.holds_rename (e := r) (fun s hs => h s (by simp [Expr.plain, hs])))

/-! ### Hashes are names -/

theorem b64_word {c : UInt8} (h : B64.isB64 c = true) : isWord c = true ∧ c ≠ 58 := by
  have : ∀ n < 256, B64.isB64 (UInt8.ofNat n) = true → isWord (UInt8.ofNat n) = true ∧ UInt8.ofNat n ≠ 58 := by decide +kernel
  have := this c.toNat c.toNat_lt
  rw [UInt8.ofNat_toNat] at this
  exact this h

theorem chr_b64 {c : UInt8} (h : c.toNat < 64) : B64.isB64 (B64.chr c) = true := by
  have := B64.isB64_chr' c h
  simp only [Bool.and_eq_true] at this
  exact this.2

/-- Base64 of a multiple of three bytes has no padding. -/
theorem encode_chars : ∀ (n : Nat) (b : Bytes), b.length = 3 * n → (∀ c ∈ B64.encode b, B64.isB64 c = true) ∧
    (B64.encode b).length = 4 * n
  | 0, b, h => by
    have : b = [] := List.length_eq_zero_iff.mp (by omega)
    subst this; simp [B64.encode]
  | n + 1, b, h => by
    match b, h with
    | x :: y :: z :: r, h =>
      obtain ⟨i1, i2⟩ := encode_chars n r (by simp at h; omega)
      obtain ⟨h1, h2, h3, h4⟩ := B64.sextets_lt x y z
      simp only [B64.encode, List.mem_cons, List.length_cons]
      refine ⟨?_, by omega⟩
      rintro c (rfl | rfl | rfl | rfl | hc)
      · exact chr_b64 h1
      · exact chr_b64 h2
      · exact chr_b64 h3
      · exact chr_b64 h4
      · exact i1 c hc
    | [], h => simp at h
    | [_], h => simp at h; omega
    | [_, _], h => simp at h; omega

theorem tag_name {w : Bytes} (h1 : ∀ c ∈ w, B64.isB64 c = true) (h2 : 12 ≤ w.length) (hx : ¬ b!"expint" <:+: 65 :: 58 :: w) :
    isName (65 :: 58 :: w) = true ∧ PlainOk (65 :: 58 :: w) := by
  have hne : ∀ k : Bytes, k.length ≤ 13 → (65 :: 58 :: w) ≠ k := by
    intro k hk e
    have := congrArg List.length e
    simp at this
    omega
  constructor
  · simp only [isName, Bool.and_eq_true, List.all_cons, Bool.not_eq_true', isReserved, Bool.or_eq_false_iff,
      decide_eq_false_iff_not]
    refine ⟨⟨by decide, by decide, ?_⟩, ?_⟩
    · rw [List.all_eq_true]; exact fun c hc => (b64_word (h1 c hc)).1
    · refine ⟨⟨⟨⟨⟨⟨⟨⟨?_, ?_⟩, ?_⟩, ?_⟩, ?_⟩, ?_⟩, ?_⟩, ?_⟩, ?_⟩
      · exact hne _ (by decide)
      · exact hne _ (by decide)
      · exact hne _ (by decide)
      · exact hne _ (by decide)
      · exact hne _ (by decide)
      · exact hne _ (by decide)
      · exact hne _ (by decide)
      · exact hne _ (by decide)
      · rw [← Bool.not_eq_true, hasSub_iff]; exact hx
  · have hn : (58 : UInt8) ∉ w := fun hm => (b64_word (h1 58 hm)).2 rfl
    refine ⟨⟨by simp, ?_⟩, ?_⟩
    · rintro ⟨a, b, h⟩
      have hc := congrArg (List.count 58) h
      simp only [List.count_append, List.count_cons, List.count_nil, List.count_eq_zero.mpr hn] at hc
      have e1 : ((65 : UInt8) == 58) = false := by decide
      simp [e1] at hc
      omega
    · have : w ≠ [] := by intro e; rw [e] at h2; simp at h2
      rw [List.getLast?_eq_getLast_of_ne_nil (by simp)]
      intro e
      have e := Option.some.inj e
      rw [List.getLast_cons (by simp), List.getLast_cons this] at e
      exact hn (e ▸ List.getLast_mem this)

theorem hash_text {H : Bytes → Bytes} (hH : ∀ x, (H x).length = 9) (x : Bytes) :
    ∃ w, hashAttribute H x = 65 :: 58 :: w ∧ (∀ c ∈ w, B64.isB64 c = true) ∧ 12 ≤ w.length := by
  obtain ⟨h1, h2⟩ := encode_chars 3 (H x) (hH x)
  exact ⟨B64.encode (H x), rfl, h1, by omega⟩

theorem hash_name {H : Bytes → Bytes} (hH : ∀ x, (H x).length = 9) {x : Bytes} (hx : ¬ b!"expint" <:+: hashAttribute H x) :
    isName (hashAttribute H x) = true ∧ PlainOk (hashAttribute H x) := by
  obtain ⟨w, hw, h1, h2⟩ := hash_text hH x
  rw [hw] at hx ⊢
  exact tag_name h1 h2 hx

/-! ### The attributes that are hashed -/

theorem leafNode_find {d d' : Drv} {c : Bytes} {t : TNode} (h : leafNode d c = .ok (t, d')) (x : Bytes) :
    (SMap.find x d'.attrCount).isSome ↔ x = c ∨ (SMap.find x d.attrCount).isSome := by
  unfold leafNode at h
  obtain ⟨pa, hpa, hh⟩ := (Res.bind_eq_ok _ _ _).mp h
  clear h
  cases hf : SMap.find c d.attrCount with
  | none =>
    rw [hf] at hh
    simp only [Res.ok.injEq, Prod.mk.injEq] at hh
    have hac : d'.attrCount = SMap.insert c 1 d.attrCount := by rw [← hh.2]; split <;> rfl
    rw [hac]
    by_cases e : x = c
    · subst e; simp [SMap.find_insert]
    · rw [SMap.find_insert, if_neg e]; simp [e]
  | some n =>
    rw [hf] at hh
    simp only [Res.ok.injEq, Prod.mk.injEq] at hh
    have hac : d'.attrCount = SMap.insert c (n + 1) d.attrCount := by rw [← hh.2]; split <;> rfl
    rw [hac]
    by_cases e : x = c
    · subst e; simp [SMap.find_insert]
    · rw [SMap.find_insert, if_neg e]; simp [e]

theorem built_find {d d' : Drv} {t : TNode} {cs : List Bytes} (h : Built d t d' cs) (x : Bytes) :
    (SMap.find x d'.attrCount).isSome ↔ x ∈ cs ∨ (SMap.find x d.attrCount).isSome := by
  induction h with
  | leaf h => rw [leafNode_find h]; simp
  | gate _ _ _ ih1 ih2 => rw [ih2, ih1]; simp only [List.mem_append]; tauto
  | gateR _ _ _ ih1 ih2 => rw [ih2, ih1]; simp only [List.mem_append]; tauto

theorem mem_keys {α : Type} {m : SMap α} {x : Bytes} : x ∈ SMap.keys m ↔ (SMap.find x m).isSome := by
  induction m with
  | nil => simp [SMap.keys, SMap.find]
  | cons p m ih =>
    obtain ⟨k, v⟩ := p
    have ih' : x ∈ m.map (·.1) ↔ (SMap.find x m).isSome := ih
    simp only [SMap.keys, List.map_cons, List.mem_cons, SMap.find, ih']
    by_cases e : x = k <;> simp [e]

theorem Expr.eval_find : ∀ (e : Expr) {d d' : Drv} {t : TNode}, e.valid = true → e.eval mk d = .ok (t, d') →
    (∀ x, (SMap.find x d.attrCount).isSome → (SMap.find x d'.attrCount).isSome) ∧
    ∀ x ∈ e.plain, (SMap.find x d'.attrCount).isSome
  | .leaf s, d, d', t, _, h => by
    have h' : leafNode d s = .ok (t, d') := h
    exact ⟨fun x hx => (leafNode_find h' x).mpr (.inr hx), fun x hx => (leafNode_find h' x).mpr (.inl (by simpa [Expr.plain] using hx))⟩
  | .cond c, d, d', t, hv, h => by
    obtain ⟨cs, hb, _⟩ := Expr.eval_built (.cond c) d d' t hv h
    exact ⟨fun x hx => (built_find hb x).mpr (.inr hx), by simp [Expr.plain]⟩
  | .paren e, d, d', t, hv, h => e.eval_find hv h
  | .or l r, d, d', t, hv, h => by
    simp only [Expr.valid, Bool.and_eq_true] at hv
    simp only [Expr.eval] at h
    obtain ⟨x, hx, h⟩ := (Res.bind_eq_ok _ _ _).mp h
    obtain ⟨y, hy, h⟩ := (Res.bind_eq_ok _ _ _).mp h
    cases h
    obtain ⟨a1, a2⟩ := l.eval_find hv.1 hx
    obtain ⟨b1, b2⟩ := r.eval_find hv.2 hy
    refine ⟨fun z hz => b1 z (a1 z hz), fun z hz => ?_⟩
    simp only [Expr.plain, List.mem_append] at hz
    exact hz.elim (fun hz => b1 z (a2 z hz)) (b2 z)
  | .and l r, d, d', t, hv, h => by
    simp only [Expr.valid, Bool.and_eq_true] at hv
    simp only [Expr.eval] at h
    obtain ⟨x, hx, h⟩ := (Res.bind_eq_ok _ _ _).mp h
    obtain ⟨y, hy, h⟩ := (Res.bind_eq_ok _ _ _).mp h
    cases h
    obtain ⟨a1, a2⟩ := l.eval_find hv.1 hx
    obtain ⟨b1, b2⟩ := r.eval_find hv.2 hy
    refine ⟨fun z hz => b1 z (a1 z hz), fun z hz => ?_⟩
    simp only [Expr.plain, List.mem_append] at hz
    exact hz.elim (fun hz => b1 z (a2 z hz)) (b2 z)

theorem msuf_word : ∀ w ∈ [4, 8, 16, 32], ∀ bit, bit < 32 → ∀ v : Bool, (msuf w bit v).all isWord = true := by
  decide +kernel

theorem marker_expint (b : Bytes) (w i : Nat) (v : Bool) : b!"expint" <:+: b ++ msuf w i v :=
  ⟨b ++ [95], _, by simp only [msuf, List.append_assoc]; rfl⟩

theorem base_word {c : CondSyn} (ht : ∀ t ∈ c.toks, TokOk t) : c.base.all isWord = true := by
  have hd : ∀ s, isName s = true → (dateAttr s).all isWord = true := by
    intro s hs
    have h1 := (name_word hs).1
    unfold dateAttr
    split
    · rw [List.all_append, List.all_append, h1]; decide
    · exact h1
  cases c with
  | cmp op s n => exact (name_word (ht (.leaf s) (by simp [CondSyn.toks]))).1
  | rangeO s lo hi => exact (name_word (ht (.leaf s) (by simp [CondSyn.toks]))).1
  | rangeC s lo hi => exact (name_word (ht (.leaf s) (by simp [CondSyn.toks]))).1
  | date op s m d y => exact hd s (ht (.leaf s) (by simp [CondSyn.toks]))
  | dateRange s m d1 d2 y => exact hd s (ht (.leaf s) (by simp [CondSyn.toks]))

/-- The texts that make hashing safe: `xs` are the plain attributes of the text `s`. -/
structure HashSafe (H : Bytes → Bytes) (xs : List Bytes) (s : Bytes) : Prop where
  /-- An attribute that occurs in a word of the text is that word. -/
  whole : ∀ x ∈ xs, ∀ r ∈ runs s, x <:+: r → r = x
  /-- No attribute occurs in a hash. -/
  fresh : ∀ x ∈ xs, ∀ y ∈ xs, ¬ x <:+: hashAttribute H y
  /-- The reserved word does not occur, neither in the text nor in a hash. -/
  text : ∀ r ∈ runs s, ¬ b!"expint" <:+: r
  hash : ∀ x ∈ xs, ¬ b!"expint" <:+: hashAttribute H x

/-- Hashing words of which some are markers that do not occur. -/
theorem hashWords_plain {H : Bytes → Bytes} (hH : ∀ x, (H x).length = 9) {xs ks : List Bytes} {s : Bytes}
    (hs : HashSafe H xs s) (hx : ∀ x ∈ xs, isName x = true) (hk : ∀ k ∈ ks, k ∈ xs ∨ (b!"expint" <:+: k ∧ k.all isWord = true))
    (hsub : ∀ x ∈ xs, x ∈ ks) : hashWords H ks s = .ok (mapRuns (hashRun (hashAttribute H) xs) s) := by
  have hmem : ∀ y ∈ ks, y ∈ runs s → y ∈ xs := by
    intro y hy hr
    rcases hk y hy with h | h
    · exact h
    · exact absurd h.1 (hs.text y hr)
  rw [hashWords_eq]
  · congr 1
    refine mapRuns_congr fun r hr => ?_
    unfold hashRun
    by_cases h : r ∈ xs
    · rw [if_pos h, if_pos (hsub r h)]
    · rw [if_neg h, if_neg (fun hk => h (hmem r hk hr))]
  · intro x hxk
    rcases hk x hxk with h | h
    · exact ⟨(name_word (hx x h)).2, (name_word (hx x h)).1⟩
    · refine ⟨?_, h.2⟩
      rintro rfl
      simp at h
  · intro x hxk hr
    exact (name_word (hash_name hH (hs.hash x (hmem x hxk hr))).1).1
  · intro x hxk r hr hi
    rcases hk x hxk with h | h
    · exact hs.whole x h r hr hi
    · exact absurd (h.1.trans hi) (hs.text r hr)
  · intro x hxk y hyk hr hi
    have hy := hmem y hyk hr
    rcases hk x hxk with h | h
    · exact hs.fresh x h y hy hi
    · exact hs.hash y hy (h.1.trans hi)

/-- Hashing a policy text renames its plain attributes. -/
theorem hashPolicy_rename {H : Bytes → Bytes} (hH : ∀ x, (H x).length = 9) {s : Bytes} {e : Expr} (hp : PolicyText mk s e)
    (hs : HashSafe H e.plain s) (hc : ∀ c ∈ e.conds, ∀ x, Tok.leaf x ∈ c.toks → x ∉ e.plain) :
    ∃ s', hashPolicy H mk s = .ok s' ∧ PolicyText mk s' (e.rename (hashAttribute H)) := by
  obtain ⟨t, d', p, h1, h2, _, _, _, h6, _, _, _, h10⟩ := createPolicyTree_ok mk hp.canon hp.valid hp.toks hp.dates
  have hx : ∀ x ∈ e.plain, isName x = true := fun x hx => h10 _ (e.plain_toks x hx)
  obtain ⟨cs, hb, hcs⟩ := e.eval_built _ _ _ hp.valid h2
  have hw := hashWords_plain hH (ks := p.completeSet) hs hx (by
    intro k hk
    rw [h6, mem_keys, built_find hb] at hk
    rcases hk with hk | hk
    · rcases hcs k hk with h | ⟨c, hc, w, i, b, hw, hi, rfl⟩
      · exact .inl h
      · refine .inr ⟨marker_expint _ _ _ _, ?_⟩
        rw [List.all_append, msuf_word w hw.mem i hi b, Bool.and_true]
        refine base_word fun t ht => h10 t ?_
        exact (e.conds_infix c hc).subset ht
    · simp [SMap.find] at hk) (by
    intro x hxp
    rw [h6, mem_keys]
    exact (e.eval_find hp.valid h2).2 x hxp)
  refine ⟨_, by unfold hashPolicy; rw [h1, Res.ok_bind]; exact hw, ?_⟩
  have hF : ∀ x ∈ e.plain, hashRun (hashAttribute H) e.plain x = hashAttribute H x := fun x hx => if_pos hx
  have hren : e.rename (hashAttribute H) = e.rename (hashRun (hashAttribute H) e.plain) := by
    have : ∀ e' : Expr, (∀ x ∈ e'.plain, x ∈ e.plain) → e'.rename (hashAttribute H) = e'.rename (hashRun (hashAttribute H) e.plain) := by
      intro e'
      induction e' with
      | leaf s => intro h; simp only [Expr.rename]; rw [hF s (h s (by simp [Expr.plain]))]
      | cond c => intro _; rfl
      | paren e ih => intro h; simp only [Expr.rename]; rw [ih h]
      | or l r ih1 ih2 =>
        intro h; simp only [Expr.rename]
        rw [ih1 (fun x hx => h x (by simp [Expr.plain, hx])), ih2 (fun x hx => h x (by simp [Expr.plain, hx]))]
      | and l r ih1 ih2 =>
        intro h; simp only [Expr.rename]
        rw [ih1 (fun x hx => h x (by simp [Expr.plain, hx])), ih2 (fun x hx => h x (by simp [Expr.plain, hx]))]
    exact this e (fun _ h => h)
  have hname : ∀ x ∈ e.plain, isName (hashAttribute H x) = true := fun x hx => (hash_name hH (hs.hash x hx)).1
  refine ⟨?_, ?_, ?_, ?_, ?_, ?_⟩
  · rw [lex_mapRuns hx hname s (runsOk_of hs.whole), effective_mapName, hp.toks, hren,
      Expr.toks_rename (f := hashRun (hashAttribute H) e.plain) (fun c hc' x hl => if_neg (hc c hc' x hl))]
  · rw [(e.rename_shape _).2.1]; exact hp.canon
  · rw [(e.rename_shape _).1]; exact hp.valid
  · unfold Expr.DatesOk; rw [e.rename_conds]; exact hp.dates
  · rw [e.rename_plain]
    intro x hx
    obtain ⟨y, hy, rfl⟩ := List.mem_map.mp hx
    exact (hash_name hH (hs.hash y hy)).2
  · rw [e.rename_conds]; exact hp.names.2

/-- Hashing a list text renames its plain attributes. -/
theorem hashList_rename {H : Bytes → Bytes} (hH : ∀ x, (H x).length = 9) {l : Bytes} {a : AExpr} (hl : ListText mk l a)
    (hs : HashSafe H a.plain l) (hc : ∀ i ∈ a.items, ∀ x, i ≠ .leaf x → Tok.leaf x ∈ i.toks → x ∉ a.plain)
    (hn : ∀ x n, Item.num x n ∈ a.items → ∀ y ∈ a.plain, x ≠ hashAttribute H y) :
    ∃ l', hashAttributesList H mk l = .ok l' ∧ ListText mk l' (a.rename (hashAttribute H)) := by
  obtain ⟨al, h1, h2, h3⟩ := listed hl
  have hA : ∀ x, x ∈ al.attrs ↔ ∃ i ∈ a.items, x ∈ i.strings mk := by rw [h2]; exact attrs_mem hl.items
  have hok : ∀ i ∈ a.items, i.Ok := fun i hi => ⟨a.items_valid hl.valid i hi, fun t ht => h3 t (a.items_toks i hi t ht)⟩
  have hx : ∀ x ∈ a.plain, isName x = true := fun x hx =>
    h3 _ (a.items_toks _ (AExpr.mem_plain.mp hx) (.leaf x) (by simp [Item.toks]))
  have hw := hashWords_plain hH (ks := al.attrs) hs hx (by
    intro k hk
    obtain ⟨i, hi, hk⟩ := (hA k).mp hk
    have key : ∀ b v w, i.value mk = some (b, v, w) → b.all isWord = true → b!"expint" <:+: k ∧ k.all isWord = true := by
      intro b v w hv hb
      obtain ⟨g1, g2, g3, g4⟩ := Item.value_ok (hok i hi) hv
      rw [g4, mem_assignStmt g1 g2] at hk
      obtain ⟨j, hj, rfl⟩ := hk
      refine ⟨marker_expint _ _ _ _, ?_⟩
      have hj' : j < 32 := by
        have : markerCount w ≤ 32 := by rcases g1 with h | h | h | h <;> subst h <;> decide
        omega
      rw [List.all_append, hb, msuf_word w g1.mem j hj' _]; rfl
    cases i with
    | leaf s => left; rw [AExpr.mem_plain]; simp only [Item.strings, List.mem_singleton] at hk; subst hk; exact hi
    | num s n => exact .inr (key _ _ _ rfl (name_word ((hok _ hi).2 (.leaf s) (by simp [Item.toks]))).1)
    | date p m d y =>
      refine .inr (key _ _ _ rfl ?_)
      have := (name_word ((hok _ hi).2 (.leaf p) (by simp [Item.toks]))).1
      rw [List.all_append, this]; decide) (by
    intro x hxp
    exact (hA x).mpr ⟨_, AExpr.mem_plain.mp hxp, by simp [Item.strings]⟩)
  refine ⟨_, by unfold hashAttributesList; rw [h1, Res.ok_bind]; exact hw, ?_⟩
  have hF : ∀ x ∈ a.plain, hashRun (hashAttribute H) a.plain x = hashAttribute H x := fun x hx => if_pos hx
  have hren : a.rename (hashAttribute H) = a.rename (hashRun (hashAttribute H) a.plain) := by
    have : ∀ a' : AExpr, (∀ x ∈ a'.plain, x ∈ a.plain) → a'.rename (hashAttribute H) = a'.rename (hashRun (hashAttribute H) a.plain) := by
      intro a'
      induction a' with
      | item i =>
        intro h
        cases i with
        | leaf s => simp only [AExpr.rename, Item.rename]; rw [hF s (h s (by simp [AExpr.plain, AExpr.items]))]
        | num => rfl
        | date => rfl
      | pre a ih => intro h; simp only [AExpr.rename]; rw [ih h]
      | post a ih => intro h; simp only [AExpr.rename]; rw [ih h]
      | cat a b ih1 ih2 =>
        intro h; simp only [AExpr.rename]
        have hp : ∀ x, x ∈ (AExpr.cat a b).plain ↔ x ∈ a.plain ∨ x ∈ b.plain := by
          intro x; simp only [AExpr.mem_plain, AExpr.items, List.mem_append]
        rw [ih1 (fun x hx => h x ((hp x).mpr (.inl hx))), ih2 (fun x hx => h x ((hp x).mpr (.inr hx)))]
    exact this a (fun _ h => h)
  have hname : ∀ x ∈ a.plain, isName (hashAttribute H x) = true := fun x hx => (hash_name hH (hs.hash x hx)).1
  refine ⟨?_, ?_, ?_, ?_, ?_⟩
  · rw [lex_mapRuns hx hname l (runsOk_of hs.whole), effective_mapName, hl.toks, hren,
      AExpr.toks_rename (f := hashRun (hashAttribute H) a.plain) (fun i hi x hne hl => if_neg (hc i hi x hne hl))]
  · rw [(a.rename_shape _).2.1]; exact hl.canon
  · rw [(a.rename_shape _).1]; exact hl.valid
  · rw [a.rename_items, List.filterMap_map]
    have : ((fun i => Option.map Prod.fst (Item.value mk i)) ∘ Item.rename (hashAttribute H)) =
        fun i => Option.map Prod.fst (Item.value mk i) := by
      funext i; simp only [Function.comp, Item.value_rename]
    rw [this]; exact hl.items.1
  · rw [a.rename_items]
    intro x n hm hm'
    obtain ⟨i, hi, he⟩ := List.mem_map.mp hm
    obtain ⟨j, hj, hje⟩ := List.mem_map.mp hm'
    cases i with
    | leaf => cases he
    | date => cases he
    | num x' n' =>
      cases he
      cases j with
      | leaf y => 
        cases hje
        exact hn _ n hi y (AExpr.mem_plain.mpr hj) rfl
      | num => cases hje
      | date => cases hje

/-! ### C68 -/

/-- **C68 (partial).** Hashing a policy text and a list text preserves whether the list satisfies the policy, for every
hash function without collisions on their attributes, if no attribute is part of another word of the texts or of a hash,
the names of numbers and the months are not attributes, and the reserved word does not occur. Missing: all other texts,
see the violations below. -/
theorem C68_hash_partial (S : StdSort) (H : Bytes → Bytes) (hH : ∀ x, (H x).length = 9) (s l : Bytes) (e : Expr) (a : AExpr)
    (hp : PolicyText mk s e) (hl : ListText mk l a) (hsp : HashSafe H e.plain s) (hsl : HashSafe H a.plain l)
    (hcp : ∀ c ∈ e.conds, ∀ x, Tok.leaf x ∈ c.toks → x ∉ e.plain)
    (hcl : ∀ i ∈ a.items, ∀ x, i ≠ .leaf x → Tok.leaf x ∈ i.toks → x ∉ a.plain)
    (hnl : ∀ x n, Item.num x n ∈ a.items → ∀ y ∈ a.plain, x ≠ hashAttribute H y)
    (hinj : ∀ x ∈ e.plain, ∀ y ∈ a.plain, H x = H y → x = y) :
    ∃ (s' l' : Bytes) (p p' : Policy) (t t' : TNode) (al al' : AttrList) (r : Bool) (n n' : Int) (u u' : TNode),
      hashPolicy H mk s = .ok s' ∧ hashAttributesList H mk l = .ok l' ∧
      createPolicyTree mk s = .ok (some p) ∧ p.root = some t ∧
      createPolicyTree mk s' = .ok (some p') ∧ p'.root = some t' ∧
      createAttributeList mk l = .ok (some al) ∧ createAttributeList mk l' = .ok (some al') ∧
      checkIfSatisfied S t al.attrs = .ok ((r, n), u) ∧ checkIfSatisfied S t' al'.attrs = .ok ((r, n'), u') := by
  obtain ⟨s', h1, h2⟩ := hashPolicy_rename hH hp hsp hcp
  obtain ⟨l', g1, g2⟩ := hashList_rename hH hl hsl hcl hnl
  obtain ⟨p, t, al, r, n, u, a1, a2, a3, a4, a5⟩ := C13_meaning S s l e a hp hl
  obtain ⟨p', t', al', r', n', u', b1, b2, b3, b4, b5⟩ := C13_meaning S s' l' _ _ h2 g2
  have : r = r' := by
    rw [Bool.eq_iff_iff, a5, b5]
    unfold Expr.trueFor
    rw [a.rename_items, itemsNum_rename]
    refine (Expr.holds_rename fun x hx => ?_).symm
    rw [List.mem_map]
    constructor
    · rintro ⟨i, hi, he⟩
      cases i with
      | leaf y =>
        have he : hashAttribute H y = hashAttribute H x := by simpa [Item.rename] using he
        have he : B64.encode (H y) = B64.encode (H x) := by simpa [hashAttribute] using he
        have he : H x = H y := by rw [← C31_base64_roundtrip (H x), ← C31_base64_roundtrip (H y), he]
        rw [hinj x hx y (AExpr.mem_plain.mpr hi) he]; exact hi
      | num => cases he
      | date => cases he
    · intro h; exact ⟨_, h, rfl⟩
  subst this
  exact ⟨s', l', p, p', t, t', al, al', r, n, n', u, u', h1, g1, a1, a2, b1, b2, a3, b3, a4, b4⟩

namespace HashEx

/-- Any function with 9 bytes of output that keeps short inputs apart. -/
def H0 (x : Bytes) : Bytes := (x ++ List.replicate 9 0).take 9

theorem H0_length (x : Bytes) : (H0 x).length = 9 := by simp [H0]

/-- `Alice and (Bob or age < 7)` -/
def e0 : Expr := .and (.leaf b!"Alice") (.paren (.or (.leaf b!"Bob") (.cond (.cmp .lt b!"age" (.flex 7)))))
/-- `|Alice|age = 5` -/
def a0 : AExpr := .pre (.cat (.item (.leaf b!"Alice")) (.item (.num b!"age" (.flex 5))))

end HashEx

open HashEx in
/-- `Alice and (Bob or age < 7)` with `|Alice|age = 5`. -/
example : PolicyText mk b!"Alice and (Bob or age < 7)" e0 ∧ ListText mk b!"|Alice|age = 5" a0 ∧
    HashSafe H0 e0.plain b!"Alice and (Bob or age < 7)" ∧ HashSafe H0 a0.plain b!"|Alice|age = 5" ∧
    (∀ c ∈ e0.conds, ∀ x, Tok.leaf x ∈ c.toks → x ∉ e0.plain) ∧
    (∀ i ∈ a0.items, ∀ x, i ≠ .leaf x → Tok.leaf x ∈ i.toks → x ∉ a0.plain) ∧
    (∀ x n, Item.num x n ∈ a0.items → ∀ y ∈ a0.plain, x ≠ hashAttribute H0 y) ∧
    (∀ x ∈ e0.plain, ∀ y ∈ a0.plain, H0 x = H0 y → x = y) ∧ e0.trueFor mk a0 := by
  refine ⟨⟨by decide +kernel, by decide, by decide, ?_, ?_, ?_⟩, ⟨by decide +kernel, by decide, by decide, ?_, ?_⟩,
    ⟨by decide +kernel, by decide +kernel, by decide +kernel, by decide +kernel⟩,
    ⟨by decide +kernel, by decide +kernel, by decide +kernel, by decide +kernel⟩, ?_, ?_, ?_, by decide +kernel, ?_⟩
  · intro c hc
    simp [e0, Expr.conds] at hc
    subst hc
    rintro ⟨h, _⟩
    simp [CondSyn.toks, NumSyn.toks, CmpOp.tok] at h
  · intro z hz
    simp [Expr.plain, e0] at hz
    rcases hz with rfl | rfl <;> exact ⟨TextEx.nameOk (by decide), by decide⟩
  · intro c hc
    simp [e0, Expr.conds] at hc
    subst hc
    exact TextEx.nameOk (by decide)
  · simp [a0, AExpr.items, Item.value]
  · simp [a0, AExpr.items, Item.value]
  · intro c hc x hx
    simp [e0, Expr.conds] at hc
    subst hc
    simp [CondSyn.toks, NumSyn.toks, CmpOp.tok] at hx
    subst hx; decide
  · intro i hi x hne hx
    simp [a0, AExpr.items] at hi
    rcases hi with rfl | rfl
    · simp [Item.toks] at hx; exact absurd (by rw [hx]) hne
    · simp [Item.toks, NumSyn.toks] at hx; subst hx; decide
  · intro x n hx
    simp [a0, AExpr.items] at hx
    obtain ⟨rfl, -⟩ := hx
    decide +kernel
  · refine ⟨?_, .inr ⟨5, 32, ?_, ?_, ?_⟩⟩
    · simp [a0, AExpr.items, Expr.holds]
    · rfl
    · simp [CondSyn.cond, CmpOp.cond, NumCond.nums, NumSyn.val, createFlexint]
    · simp [CondSyn.cond, CmpOp.cond, NumCond.holds, NumSyn.val, createFlexint]

/-! ### Violations -/

theorem repl_none {old : Bytes} (ho : old ≠ []) (hw : old.all isWord = true) (new : Bytes) {s : Bytes}
    (h : ∀ r ∈ runs s, ¬ old <:+: r) : repl old new s = s := by
  rw [repl_eq ho hw new (fun r hr hi => absurd hi (h r hr)), mapRuns_id]
  intro r hr
  rw [if_neg]
  rintro rfl
  exact h _ hr (List.infix_refl _)

/-- A policy text in which an attribute is part of another one. -/
theorem C68_substring_violated (S : StdSort) (H : Bytes → Bytes) (hH : ∀ x, (H x).length = 9) (hne : H b!"ab" ≠ H b!"abc")
    (hf : ¬ b!"ab" <:+: hashAttribute H b!"ab") (he : ∀ x, x = b!"ab" ∨ x = b!"abc" → ¬ b!"expint" <:+: hashAttribute H x) :
    ∃ (s' l' : Bytes) (p p' : Policy) (t t' : TNode) (al al' : AttrList) (n n' : Int) (u u' : TNode),
      hashPolicy H mk b!"abc or ab" = .ok s' ∧ hashAttributesList H mk b!"abc" = .ok l' ∧
      createPolicyTree mk b!"abc or ab" = .ok (some p) ∧ p.root = some t ∧
      createPolicyTree mk s' = .ok (some p') ∧ p'.root = some t' ∧
      createAttributeList mk b!"abc" = .ok (some al) ∧ createAttributeList mk l' = .ok (some al') ∧
      checkIfSatisfied S t al.attrs = .ok ((true, n), u) ∧ checkIfSatisfied S t' al'.attrs = .ok ((false, n'), u') := by
  have hab := hash_name hH (he _ (.inl rfl))
  obtain ⟨w, hw, hw1, hw2⟩ := hash_text hH b!"ab"
  have habc := hash_name hH (he _ (.inr rfl))
  have hcx : ¬ b!"expint" <:+: hashAttribute H b!"ab" ++ [99] := by
    rw [List.infix_concat_iff]
    rintro (h | h)
    · have : b!"expin" ++ [116] <:+ hashAttribute H b!"ab" ++ [99] := h
      rw [List.suffix_concat_iff] at this
      rcases this with h | ⟨t, ht, _⟩
      · simp at h
      · have := congrArg List.getLast? ht
        rw [List.getLast?_concat, List.getLast?_concat] at this
        revert this; decide
    · exact he _ (.inl rfl) h
  have hcn : isName (hashAttribute H b!"ab" ++ [99]) = true ∧ PlainOk (hashAttribute H b!"ab" ++ [99]) := by
    rw [hw, List.cons_append, List.cons_append] at hcx ⊢
    refine tag_name (w := w ++ [99]) ?_ (by simp; omega) hcx
    intro c hc
    rcases List.mem_append.mp hc with h | h
    · exact hw1 c h
    · rw [List.mem_singleton] at h; subst h; decide
  generalize hxe : hashAttribute H b!"ab" = x at hab hcx hcn hf
  generalize hye : hashAttribute H b!"abc" = y at habc
  have hxy : x ≠ y := by
    intro e
    rw [← hxe, ← hye] at e
    have e : B64.encode (H b!"ab") = B64.encode (H b!"abc") := by simpa [hashAttribute] using e
    exact hne (by rw [← C31_base64_roundtrip (H b!"ab"), ← C31_base64_roundtrip (H b!"abc"), e])
  have hxyl : x.length = y.length := by
    rw [← hxe, ← hye]; simp [hashAttribute, (encode_chars 3 _ (hH _)).2]
  have hpt : PolicyText mk b!"abc or ab" (.or (.leaf b!"abc") (.leaf b!"ab")) := by
    refine ⟨by decide +kernel, by decide, by decide, ?_, ?_, ?_⟩
    · intro c hc; simp [Expr.conds] at hc
    · intro z hz
      simp [Expr.plain] at hz
      rcases hz with rfl | rfl <;> exact ⟨TextEx.nameOk (by decide), by decide⟩
    · intro c hc; simp [Expr.conds] at hc
  have hlt : ListText mk b!"abc" (.item (.leaf b!"abc")) := by
    refine ⟨by decide +kernel, by decide, by decide, ?_, ?_⟩ <;> simp [AExpr.items, Item.value]
  have hs' : hashPolicy H mk b!"abc or ab" = .ok (x ++ [99] ++ b!" or " ++ x) := by
    have hks : ∃ p, createPolicyTree mk b!"abc or ab" = .ok (some p) ∧ p.completeSet = [b!"ab", b!"abc"] := by
      refine ⟨_, rfl, rfl⟩
    obtain ⟨p, h1, h2⟩ := hks
    unfold hashPolicy
    rw [h1, Res.ok_bind]
    show hashWords H p.completeSet _ = _
    rw [h2]
    show hashWords H [b!"ab", b!"abc"] b!"abc or ab" = _
    simp only [hashWords, replaceAll]
    rw [if_neg (by decide), Res.ok_bind, if_neg (by decide), Res.ok_bind, hxe, hye]
    have e1 : replaceFrom b!"ab" x (b!"abc or ab").length b!"abc or ab" = x ++ [99] ++ b!" or " ++ x := by
      show x ++ ([99] ++ b!" or " ++ (x ++ [])) = _
      simp
    rw [e1]
    congr 1
    refine repl_none (by decide) (by decide) y ?_
    intro r hr hi
    rw [List.append_assoc, runs_append (name_word hcn.1).1 (name_word hcn.1).2 (by intro c hc; cases hc; decide)] at hr
    have e2 : b!" or " ++ x = 32 :: (b!"or" ++ 32 :: (x ++ [])) := by simp
    rw [e2, runs_cons_nonword (by decide), runs_append (by decide) (by decide) (by intro c hc; cases hc; decide),
      runs_cons_nonword (by decide), runs_append (name_word hab.1).1 (name_word hab.1).2 (by intro c hc; cases hc)] at hr
    simp only [List.mem_cons, runs, List.not_mem_nil, or_false] at hr
    rcases hr with rfl | rfl | rfl
    · rw [List.infix_concat_iff] at hi
      rcases hi with hi | hi
      · have : b!"ab" ++ [99] <:+ x ++ [99] := hi
        rw [List.suffix_concat_iff] at this
        rcases this with h | ⟨t, ht, hts⟩
        · simp at h
        · have : t ++ [99] = b!"ab" ++ [99] := ht.symm
          have := List.append_cancel_right this
          exact hf (this ▸ hts).isInfix
      · exact hf ((by decide : b!"ab" <:+: b!"abc").trans hi)
    · revert hi; decide
    · exact hf ((by decide : b!"ab" <:+: b!"abc").trans hi)
  have hl' : hashAttributesList H mk b!"abc" = .ok y := by
    have hks : ∃ p, createAttributeList mk b!"abc" = .ok (some p) ∧ p.attrs = [b!"abc"] := ⟨_, rfl, rfl⟩
    obtain ⟨p, h1, h2⟩ := hks
    unfold hashAttributesList
    rw [h1, Res.ok_bind]
    show hashWords H p.attrs _ = _
    rw [h2]
    show hashWords H [b!"abc"] b!"abc" = _
    simp only [hashWords, replaceAll]
    rw [if_neg (by decide), Res.ok_bind, hye]
    show Res.ok (y ++ []) = _
    simp
  have hpt' : PolicyText mk (x ++ [99] ++ b!" or " ++ x) (.or (.leaf (x ++ [99])) (.leaf x)) := by
    refine ⟨?_, rfl, rfl, ?_, ?_, ?_⟩
    · have hm : mapRuns (hashRun (fun z => if z = b!"abc" then x ++ [99] else x) [b!"abc", b!"ab"]) b!"abc or ab" =
          x ++ [99] ++ b!" or " ++ x := by
        rw [show b!"abc or ab" = b!"abc" ++ 32 :: (b!"or" ++ 32 :: (b!"ab" ++ [])) from rfl,
          mapRuns_append _ (by decide) (by decide) (by intro c hc; cases hc; decide), mapRuns_cons_nonword _ (by decide),
          mapRuns_append _ (by decide) (by decide) (by intro c hc; cases hc; decide), mapRuns_cons_nonword _ (by decide),
          mapRuns_append _ (by decide) (by decide) (by intro c hc; cases hc), mapRuns_nil]
        show x ++ [99] ++ 32 :: (b!"or" ++ 32 :: (x ++ [])) = _
        simp
      rw [← hm, lex_mapRuns, effective_mapName, hpt.toks]
      · rfl
      · decide
      · intro z hz
        simp only [List.mem_cons, List.not_mem_nil, or_false] at hz
        rcases hz with rfl | rfl
        · exact hcn.1
        · exact hab.1
      · intro r hr
        have : runs b!"abc or ab" = [b!"abc", b!"or", b!"ab"] := by decide +kernel
        rw [this] at hr
        revert r; decide
    · intro c hc; simp [Expr.conds] at hc
    · intro z hz
      simp [Expr.plain] at hz
      rcases hz with rfl | rfl
      · exact hcn.2
      · exact hab.2
    · intro c hc; simp [Expr.conds] at hc
  have hlt' : ListText mk y (.item (.leaf y)) := by
    refine ⟨?_, rfl, rfl, ?_, ?_⟩
    · have hm : mapRuns (hashRun (fun _ => y) [b!"abc"]) b!"abc" = y := by
        rw [show b!"abc" = b!"abc" ++ [] from rfl, mapRuns_append _ (by decide) (by decide) (by intro c hc; cases hc), mapRuns_nil]
        show y ++ [] = y
        simp
      rw [← hm, lex_mapRuns, effective_mapName, hm, hlt.toks]
      · rfl
      · decide
      · intro z _; exact habc.1
      · intro r hr
        have : runs b!"abc" = [b!"abc"] := by decide +kernel
        rw [this] at hr
        revert r; decide
    · simp [AExpr.items, Item.value]
    · simp [AExpr.items, Item.value]
  obtain ⟨p, t, al, r, n, u, a1, a2, a3, a4, a5⟩ := C13_meaning S _ _ _ _ hpt hlt
  obtain ⟨p', t', al', r', n', u', b1, b2, b3, b4, b5⟩ := C13_meaning S _ _ _ _ hpt' hlt'
  have hr : r = true := a5.mpr (.inl (by simp [AExpr.items, Expr.holds]))
  have hr' : r' = false := by
    rw [← Bool.not_eq_true, b5]
    rintro (h | h)
    · simp [AExpr.items, Expr.holds] at h
      have := congrArg List.length h
      simp at this; omega
    · simp [AExpr.items, Expr.holds] at h
      exact hxy h
  subst hr; subst hr'
  exact ⟨_, _, p, p', t, t', al, al', n, n', u, u', hs', hl', a1, a2, b1, b2, a3, b3, a4, b4⟩

example : (∀ x, (HashEx.H0 x).length = 9) ∧ HashEx.H0 b!"ab" ≠ HashEx.H0 b!"abc" ∧ ¬ b!"ab" <:+: hashAttribute HashEx.H0 b!"ab" ∧
    ¬ b!"expint" <:+: hashAttribute HashEx.H0 b!"ab" ∧ ¬ b!"expint" <:+: hashAttribute HashEx.H0 b!"abc" :=
  ⟨HashEx.H0_length, by decide +kernel, by decide +kernel, by decide +kernel, by decide +kernel⟩

/-- An attribute that is part of a keyword: hashing `a and b` gives a text that is not a policy. -/
theorem C68_keyword_violated (H : Bytes → Bytes) (hH : ∀ x, (H x).length = 9) (hf : ¬ b!"b" <:+: hashAttribute H b!"a")
    (he : ∀ x, x = b!"a" ∨ x = b!"b" → ¬ b!"expint" <:+: hashAttribute H x) :
    ∃ (s' : Bytes) (p : Policy), createPolicyTree mk b!"a and b" = .ok (some p) ∧ hashPolicy H mk b!"a and b" = .ok s' ∧
      createPolicyTree mk s' = .ok none := by
  have ha := hash_name hH (he _ (.inl rfl))
  have hb := hash_name hH (he _ (.inr rfl))
  obtain ⟨w, hw, hw1, hw2⟩ := hash_text hH b!"a"
  have hcx : ¬ b!"expint" <:+: hashAttribute H b!"a" ++ b!"nd" := by
    rw [show hashAttribute H b!"a" ++ b!"nd" = (hashAttribute H b!"a" ++ [110]) ++ [100] by simp, List.infix_concat_iff, List.infix_concat_iff]
    have key : ∀ (c : UInt8) (z : Bytes), c ≠ 116 → ¬ b!"expint" <:+ z ++ [c] := by
      intro c z hc h
      have : b!"expin" ++ [116] <:+ z ++ [c] := h
      rw [List.suffix_concat_iff] at this
      rcases this with h | ⟨t, ht, _⟩
      · simp at h
      · have := congrArg List.getLast? ht
        rw [List.getLast?_concat, List.getLast?_concat] at this
        exact hc (Option.some.inj this).symm
    rintro (h | h | h)
    · exact key _ _ (by decide) h
    · exact key _ _ (by decide) h
    · exact he _ (.inl rfl) h
  have hcn : isName (hashAttribute H b!"a" ++ b!"nd") = true := by
    rw [hw, List.cons_append, List.cons_append] at hcx ⊢
    refine (tag_name (w := w ++ b!"nd") ?_ (by simp; omega) hcx).1
    intro c hc
    rcases List.mem_append.mp hc with h | h
    · exact hw1 c h
    · simp at h; rcases h with rfl | rfl <;> decide
  generalize hxe : hashAttribute H b!"a" = x at ha hcx hcn hf
  generalize hye : hashAttribute H b!"b" = y at hb
  have hmem : (98 : UInt8) ∉ x := by
    intro h
    obtain ⟨u, v, rfl⟩ := List.append_of_mem h
    exact hf ⟨u, v, by simp⟩
  have hs' : hashPolicy H mk b!"a and b" = .ok (x ++ 32 :: ((x ++ b!"nd") ++ 32 :: (y ++ []))) := by
    have hks : ∃ p, createPolicyTree mk b!"a and b" = .ok (some p) ∧ p.completeSet = [b!"a", b!"b"] := by
      refine ⟨_, rfl, rfl⟩
    obtain ⟨p, h1, h2⟩ := hks
    unfold hashPolicy
    rw [h1, Res.ok_bind]
    show hashWords H p.completeSet _ = _
    rw [h2]
    show hashWords H [b!"a", b!"b"] b!"a and b" = _
    simp only [hashWords, replaceAll]
    rw [if_neg (by decide), Res.ok_bind, if_neg (by decide), Res.ok_bind, hxe, hye]
    have e1 : replaceFrom b!"a" x (b!"a and b").length b!"a and b" = x ++ 32 :: ((x ++ b!"nd") ++ 32 :: (b!"b" ++ [])) := by
      show x ++ 32 :: (x ++ b!"nd b") = _
      simp
    rw [e1]
    congr 1
    have hr1 : EndsRun (32 :: ((x ++ b!"nd") ++ 32 :: (b!"b" ++ []))) := by intro c hc; cases hc; decide
    have hr2 : EndsRun (32 :: (b!"b" ++ [])) := by intro c hc; cases hc; decide
    have hr3 : EndsRun [] := by intro c hc; cases hc
    have hb1 : (b!"b").all isWord = true := by decide
    have := repl_eq (old := b!"b") (by decide) (by decide) y (s := x ++ 32 :: ((x ++ b!"nd") ++ 32 :: (b!"b" ++ []))) (by
      intro r hr hi
      rw [runs_append (name_word ha.1).1 (name_word ha.1).2 hr1, runs_cons_nonword (by decide),
        runs_append (name_word hcn).1 (name_word hcn).2 hr2, runs_cons_nonword (by decide),
        runs_append hb1 (by decide) hr3] at hr
      simp only [List.mem_cons, runs, List.not_mem_nil, or_false] at hr
      have hi' := hi.subset (List.mem_singleton.mpr rfl : (98 : UInt8) ∈ b!"b")
      rcases hr with rfl | rfl | rfl
      · exact absurd hi' hmem
      · rcases List.mem_append.mp hi' with h | h
        · exact absurd h hmem
        · simp at h
      · rfl)
    unfold repl at this
    rw [this, mapRuns_append _ (name_word ha.1).1 (name_word ha.1).2 hr1, mapRuns_cons_nonword _ (by decide),
      mapRuns_append _ (name_word hcn).1 (name_word hcn).2 hr2, mapRuns_cons_nonword _ (by decide),
      mapRuns_append _ hb1 (by decide) hr3, mapRuns_nil]
    have n1 : x ≠ b!"b" := by rintro rfl; exact hmem (by decide)
    have n2 : x ++ b!"nd" ≠ b!"b" := by
      intro h
      have := congrArg List.length h
      simp at this
    simp only [if_neg n1, if_neg n2, if_true]
  have hlex : lex (x ++ 32 :: ((x ++ b!"nd") ++ 32 :: (y ++ []))) = [.leaf x, .leaf (x ++ b!"nd"), .leaf y] := by
    have hm : mapRuns (hashRun (fun z => if z = b!"a" then x else if z = b!"xnd" then x ++ b!"nd" else y)
        [b!"a", b!"xnd", b!"b"]) b!"a xnd b" = x ++ 32 :: ((x ++ b!"nd") ++ 32 :: (y ++ [])) := by
      rw [show b!"a xnd b" = b!"a" ++ 32 :: (b!"xnd" ++ 32 :: (b!"b" ++ [])) from rfl,
        mapRuns_append _ (by decide) (by decide) (by intro c hc; cases hc; decide), mapRuns_cons_nonword _ (by decide),
        mapRuns_append _ (by decide) (by decide) (by intro c hc; cases hc; decide), mapRuns_cons_nonword _ (by decide),
        mapRuns_append _ (by decide) (by decide) (by intro c hc; cases hc), mapRuns_nil]
      rfl
    rw [← hm, lex_mapRuns]
    · have : lex b!"a xnd b" = [.leaf b!"a", .leaf b!"xnd", .leaf b!"b"] := by decide +kernel
      rw [this]; rfl
    · decide
    · intro z hz
      simp only [List.mem_cons, List.not_mem_nil, or_false] at hz
      rcases hz with rfl | rfl | rfl
      · exact ha.1
      · exact hcn
      · exact hb.1
    · intro r hr
      have : runs b!"a xnd b" = [b!"a", b!"xnd", b!"b"] := by decide +kernel
      rw [this] at hr
      exact .inl hr
  have hno : ∀ c : CondSyn, c.valid = true → c.toks <:+: [.leaf x, .leaf (x ++ b!"nd"), .leaf y] → False := by
    intro c _ hi
    have hl : ∀ t ∈ c.toks, ∃ z, t = .leaf z := by
      intro t ht
      have := hi.subset ht
      simp at this
      rcases this with h | h | h <;> exact ⟨_, h⟩
    cases c with
    | cmp op s n => obtain ⟨z, hz⟩ := hl op.tok (by simp [CondSyn.toks]); cases op <;> cases hz
    | rangeO s lo hi => obtain ⟨z, hz⟩ := hl .inn (by simp [CondSyn.toks]); cases hz
    | rangeC s lo hi => obtain ⟨z, hz⟩ := hl .inn (by simp [CondSyn.toks]); cases hz
    | date op s m d y => obtain ⟨z, hz⟩ := hl op.dateTok (by simp [CondSyn.toks]); cases op <;> cases hz
    | dateRange s m d1 d2 y => obtain ⟨z, hz⟩ := hl (.chr 44) (by simp [CondSyn.toks]); cases hz
  refine ⟨_, _, rfl, hs', C14_malformed_gives_null _ ?_ ?_⟩
  · rintro ⟨e, hv, h⟩
    rw [hlex] at h
    have h : e.toks = [.leaf x, .leaf (x ++ b!"nd"), .leaf y] := h.symm
    have hl : ∀ t ∈ e.toks, ∃ z, t = .leaf z := by
      intro t ht
      rw [h] at ht
      simp at ht
      rcases ht with h | h | h <;> exact ⟨_, h⟩
    cases e with
    | leaf s => simp [Expr.toks] at h
    | cond c => exact hno c hv (h ▸ List.infix_refl _)
    | paren e => obtain ⟨z, hz⟩ := hl (.chr 40) (by simp [Expr.toks]); cases hz
    | or l r => obtain ⟨z, hz⟩ := hl .or (by simp [Expr.toks]); cases hz
    | and l r => obtain ⟨z, hz⟩ := hl .and (by simp [Expr.toks]); cases hz
  · intro c hv hi
    rw [hlex] at hi
    exact (hno c hv hi).elim

example : (∀ x, (HashEx.H0 x).length = 9) ∧ ¬ b!"b" <:+: hashAttribute HashEx.H0 b!"a" ∧
    ¬ b!"expint" <:+: hashAttribute HashEx.H0 b!"a" ∧ ¬ b!"expint" <:+: hashAttribute HashEx.H0 b!"b" :=
  ⟨HashEx.H0_length, by decide +kernel, by decide +kernel, by decide +kernel⟩

/-- A text that is not a policy makes the code dereference a null pointer, and likewise for lists. -/
theorem C68_null_violated (H : Bytes → Bytes) (s : Bytes) :
    (createPolicyTree mk s = .ok none → hashPolicy H mk s = .ub) ∧
    (createAttributeList mk s = .ok none → hashAttributesList H mk s = .ub) := by
  constructor <;> intro h
  · unfold hashPolicy; rw [h]; rfl
  · unfold hashAttributesList; rw [h]; rfl

example : createPolicyTree mk [] = .ok none ∧ createAttributeList mk [] = .ok none := ⟨rfl, rfl⟩

theorem hashWords_total (H : Bytes → Bytes) : ∀ (ks : List Bytes) (s : Bytes), (∀ k ∈ ks, k ≠ []) →
    ∃ r, hashWords H ks s = .ok r
  | [], s, _ => ⟨s, rfl⟩
  | k :: ks, s, h => by
    unfold hashWords replaceAll
    rw [if_neg (h k (by simp)), Res.ok_bind]
    exact hashWords_total H ks _ fun k hk => h k (by simp [hk])

theorem contrib_subset {α : Type} (f : Item → List α) {x : α} : ∀ (is P : List Item), x ∈ contrib f P is →
    ∃ i ∈ is, x ∈ f i
  | [], P, h => by simp [contrib] at h
  | i :: is, P, h => by
    simp only [contrib, List.mem_append] at h
    rcases h with h | h
    · split at h
      · simp at h
      · exact ⟨i, by simp, h⟩
    · obtain ⟨j, hj, hx⟩ := contrib_subset f is _ h
      exact ⟨j, by simp [hj], hx⟩

/-- Hashing ends with a text for every accepted policy and every accepted list, whatever the hash function: no
attribute to be replaced is empty. -/
theorem C68_terminates (H : Bytes → Bytes) (s : Bytes) :
    (∀ p, createPolicyTree mk s = .ok (some p) → ∃ r, hashPolicy H mk s = .ok r) ∧
    (∀ l, createAttributeList mk s = .ok (some l) → ∃ r, hashAttributesList H mk s = .ok r) := by
  have hnm : ∀ (b : Bytes) w i v, b ++ msuf w i v ≠ [] := by
    intro b w i v h
    have := marker_expint b w i v
    rw [h] at this
    exact absurd this (by decide)
  constructor
  · intro p hp
    obtain ⟨e, t, d', hv, hc, he, hev, rfl⟩ := accepted_eval hp
    obtain ⟨cs, hb, hcs⟩ := e.eval_built _ _ _ hv hev
    obtain ⟨r, hr⟩ := hashWords_total H (builtPolicy d' t).completeSet s (by
      intro k hk
      have hk' : k ∈ SMap.keys d'.attrCount := hk
      rw [mem_keys, built_find hb] at hk'
      rcases hk' with hk' | hk'
      · rcases hcs k hk' with h | ⟨c, hc, w, i, b, hw, hi, rfl⟩
        · have := e.plain_toks k h
          rw [← he] at this
          exact (name_word (tokOk_of_lex (List.takeWhile_subset _ this))).2
        · exact hnm _ _ _ _
      · simp [SMap.find] at hk')
    refine ⟨r, ?_⟩
    unfold hashPolicy
    rw [hp, Res.ok_bind]
    exact hr
  · intro l hl
    obtain ⟨a, hv, hc, he⟩ := accepted_list hl
    obtain ⟨al, h1, h2, -, h3⟩ := createAttributeList_ok mk hc hv he
    rw [h1] at hl
    obtain rfl : al = l := by simpa using hl
    obtain ⟨r, hr⟩ := hashWords_total H al.attrs s (by
      intro k hk
      rw [h2] at hk
      obtain ⟨i, hi, hk⟩ := contrib_subset _ _ _ hk
      have hok : i.Ok := ⟨a.items_valid hv i hi, fun t ht => h3 t (a.items_toks i hi t ht)⟩
      have key : ∀ b v w, i.value mk = some (b, v, w) → k ≠ [] := by
        intro b v w hv
        obtain ⟨g1, g2, g3, g4⟩ := Item.value_ok hok hv
        rw [g4, mem_assignStmt g1 g2] at hk
        obtain ⟨j, hj, rfl⟩ := hk
        exact hnm _ _ _ _
      cases i with
      | leaf s =>
        simp only [Item.strings, List.mem_singleton] at hk
        subst hk
        exact (name_word (hok.2 (.leaf k) (by simp [Item.toks]))).2
      | num s n => exact key _ _ _ rfl
      | date p m d y => exact key _ _ _ rfl)
    refine ⟨r, ?_⟩
    unfold hashAttributesList
    rw [h1, Res.ok_bind]
    exact hr

example : ∃ p, createPolicyTree mk b!"a < 7 and (b or dept:x)" = .ok (some p) :=
  let ⟨p, _, _, h, _⟩ := parsed (text2 (mk := mk)); ⟨p, h⟩

theorem findIn_none {old : Bytes} (new : Bytes) (ho : old ≠ []) : ∀ s : Bytes, findIn old s = none →
    replaceFrom old new s.length s = s
  | [], _ => rfl
  | b :: s, h => by
    unfold findIn at h
    split at h
    · simp at h
    · rename_i hp
      have h' : findIn old s = none := by simpa using h
      show replaceFrom old new (s.length + 1) (b :: s) = _
      unfold replaceFrom
      rw [if_neg hp, findIn_none new ho s h']

theorem findIn_some {old : Bytes} (new : Bytes) (ho : old ≠ []) : ∀ (s : Bytes) (i : Nat), findIn old s = some i →
    i + old.length ≤ s.length ∧
    replaceFrom old new s.length s = s.take i ++ new ++ replaceFrom old new (s.drop (i + old.length)).length (s.drop (i + old.length))
  | [], i, h => by simp [findIn, ho] at h
  | b :: s, i, h => by
    unfold findIn at h
    split at h
    · rename_i hp
      cases h
      have hl : old.length ≤ (b :: s).length := (List.isPrefixOf_iff_prefix.1 hp).length_le
      have h0 : 0 < old.length := List.length_pos_iff.2 ho
      refine ⟨by omega, ?_⟩
      show replaceFrom old new (s.length + 1) (b :: s) = _
      unfold replaceFrom
      rw [if_pos hp]
      simp only [List.take_zero, List.nil_append, Nat.zero_add]
      rw [replaceFrom_fuel ho new s.length ((b :: s).drop old.length).length _ (by simp; omega) (Nat.le_refl _)]
      cases (List.drop old.length (b :: s)) <;> rfl
    · rename_i hp
      obtain ⟨j, hj, rfl⟩ : ∃ j, findIn old s = some j ∧ j + 1 = i := by simpa using h
      obtain ⟨h1, h2⟩ := findIn_some new ho s j hj
      refine ⟨by simp; omega, ?_⟩
      show replaceFrom old new (s.length + 1) (b :: s) = _
      rw [show replaceFrom old new (s.length + 1) (b :: s) = b :: replaceFrom old new s.length s by
        conv => lhs; unfold replaceFrom
        rw [if_neg hp], h2]
      rw [show j + 1 + old.length = (j + old.length) + 1 by omega]
      simp

theorem replaceLoop_word {old : Bytes} (new : Bytes) (ho : old ≠ []) : ∀ (fuel : Nat) (pre s : Bytes), s.length < fuel →
    replaceLoop old new fuel (pre ++ s) pre.length = some (pre ++ replaceFrom old new s.length s)
  | 0, _, s, h => by omega
  | fuel + 1, pre, s, h => by
    unfold replaceLoop strFind
    rw [if_pos (by simp), List.drop_left]
    cases hf : findIn old s with
    | none => simp only [Option.map_none, findIn_none new ho s hf]
    | some i =>
      obtain ⟨h1, h2⟩ := findIn_some new ho s i hf
      have h0 : 0 < old.length := List.length_pos_iff.2 ho
      simp only [Option.map_some]
      have e1 : (pre ++ s).take (pre.length + i) = pre ++ s.take i := by
        rw [List.take_append, List.take_of_length_le (by omega)]; congr 1; congr 1; omega
      have e2 : (pre ++ s).drop (pre.length + i + old.length) = s.drop (i + old.length) := by
        rw [List.drop_append, List.drop_of_length_le (by omega)]; simp only [List.nil_append]; congr 1; omega
      have e3 : pre.length + i + new.length = (pre ++ s.take i ++ new).length := by simp; omega
      rw [e1, e2, e3, replaceLoop_word new ho fuel (pre ++ s.take i ++ new) (s.drop (i + old.length)) (by simp; omega), h2]
      simp

theorem replaceLoop_empty (new : Bytes) : ∀ (fuel : Nat) (s : Bytes) (pos : Nat), pos ≤ s.length →
    replaceLoop [] new fuel s pos = none
  | 0, _, _, _ => rfl
  | fuel + 1, s, pos, h => by
    unfold replaceLoop strFind
    have hf : findIn [] (s.drop pos) = some 0 := by
      cases s.drop pos <;> rfl
    rw [if_pos h, hf]
    simp only [Option.map_some, Nat.add_zero]
    exact replaceLoop_empty new fuel _ _ (by simp; omega)

/-- The loop of `replaceAll` as written ends after at most one pass for each byte and gives `replaceAll` of the model, for every
non-empty word; for the empty word it never ends (the text grows with every pass). -/
theorem C68_replace_loop (s old new : Bytes) :
    (∀ r, replaceAll s old new = .ok r → ∀ fuel, s.length < fuel → replaceLoop old new fuel s 0 = some r) ∧
    (replaceAll s old new = .throw .outOfMemory ↔ ∀ fuel, replaceLoop old new fuel s 0 = none) := by
  unfold replaceAll
  by_cases ho : old = []
  · rw [if_pos ho]
    subst ho
    exact ⟨fun r h => by simp at h, fun _ fuel => replaceLoop_empty new fuel s 0 (by omega), fun _ => rfl⟩
  · rw [if_neg ho]
    refine ⟨fun r h fuel hf => ?_, fun h => by simp at h, fun h => ?_⟩
    · cases h
      exact replaceLoop_word new ho fuel [] s hf
    · have := replaceLoop_word new ho (s.length + 1) [] s (by omega)
      rw [show ([] : Bytes) ++ s = s from rfl, show ([] : Bytes).length = 0 from rfl, h] at this
      simp at this

example : replaceAll b!"a or ab" b!"a" b!"xa" = .ok b!"xa or xab" ∧ replaceAll b!"a" [] b!"x" = .throw .outOfMemory := by decide

end Abe
