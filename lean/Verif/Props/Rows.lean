import Verif.Proof.RowsExact
import Verif.Props.LSSS
/-!
# C138: recovery uses as few rows as possible, and their number is the number reported

`Ways`, `Clear` and `Flat` are in Verif/Spec/Rows.lean.
-/
set_option linter.unusedSimpArgs false
set_option linter.unusedSectionVars false
set_option autoImplicit false
namespace Abe
open LsssEx
variable {F : Type} [Field F] [DecidableEq F]

/-- `recover_sat` with the scan that it starts with and the number of rows. -/
theorem recover_rows (S : StdSort) (o : LSSS F) (p : Policy) (t : TNode) (A : List Bytes) (hr : p.root = some t)
    (hao : AndOr t) (hfr : Fresh t) (hso : BinAnd t ∨ ∀ k, 0 < k → k ≤ t.size → (k : F) ≠ 0)
    (hi : IdxOkT (if p.hasDup then p.dupCount else o.attrCount) t)
    (hlabels : ((leaves t).map (uniqueLabel (if p.hasDup then p.dupCount else o.attrCount))).Nodup) (hs : sat A t = true) :
    ∃ t' o', scan S A t = .ok t' ∧ Scanned A t t' ∧ Ranked A t' ∧
      recoverCoefficients S false o (some p) A = .ok (true, o', { p with root := some t' }) ∧ o'.results.length = taken t' := by
  obtain ⟨t', h2, h3⟩ := recover_sat S o p t A hr hao hfr hso hi hs
  obtain ⟨t'', h4, h5⟩ := scan_ok S A t hao hfr
  have e : t'' = t' := by
    simp only [recoverCoefficients, hr, h4, Res.ok_bind, h5.mark, hs, if_true] at h3
    obtain ⟨⟨r, o1⟩, g1, g2⟩ := (Res.bind_eq_ok _ _ _).mp h3
    cases r <;> simp at g2
    exact g2.2
  subst e
  refine ⟨t'', _, h4, h2, scan_ranked S A t t'' hao hfr h4, h3, ?_⟩
  have hnd : (((recRows (recFull t'' (1 : F) true)).map (toRow (effCount o p))).map Prod.fst ++ ([] : SMap (Bytes × F)).map Prod.fst).Nodup := by
    rw [List.map_nil, List.append_nil, fst_toRow]
    have h1 : ((rleaves t'').map (uniqueLabel (effCount o p))).Nodup := by
      rw [((rleaves_perm t'').map _).nodup_iff, h2.same.leaves]; exact hlabels
    rw [← recFull_fst t'' (1 : F) true] at h1
    exact h1.sublist ((recRows_keys_sublist _).map _)
  rw [(SMap.perm_addRows _ [] hnd).length_eq, List.append_nil, List.length_map, recRows_taken]

/-- The rows that recovery uses are always one way to satisfy the policy: for each AND gate that is used all
subnodes, for each OR gate one of them, and no other rows. -/
theorem C138_rows_are_a_way (S : StdSort) (o : LSSS F) (p : Policy) (t : TNode) (A : List Bytes) (hroot : p.root = some t)
    (hao : AndOr t) (hfresh : Fresh t) (hsolve : BinAnd t ∨ ∀ k, 0 < k → k ≤ t.size → (k : F) ≠ 0)
    (hidx : IdxOkT (if p.hasDup then p.dupCount else o.attrCount) t)
    (hlabels : ((leaves t).map (uniqueLabel (if p.hasDup then p.dupCount else o.attrCount))).Nodup) (hsat : sat A t = true) :
    ∃ o' p', recoverCoefficients S false o (some p) A = .ok (true, o', p') ∧ Ways (· ∈ A) t o'.results.length := by
  obtain ⟨t', o', -, h2, -, h4, h5⟩ := recover_rows S o p t A hroot hao hfresh hsolve hidx hlabels hsat
  refine ⟨o', _, h4, ?_⟩
  rw [h5, ← h2.same.ways]
  exact taken_way A t' (h2.same.andOr.mpr hao) h2.good (by rw [h2.mark, hsat])

/-- The number of rows is least, for every list of attributes, if the number of direct subnodes tells which
subnode of an OR gate needs fewer leaves (`Clear`). Missing: other policies, see `C138_exact`. -/
theorem C138_fewest_partial (S : StdSort) (o : LSSS F) (p : Policy) (t : TNode) (A : List Bytes) (hroot : p.root = some t)
    (hao : AndOr t) (hfresh : Fresh t) (hsolve : BinAnd t ∨ ∀ k, 0 < k → k ≤ t.size → (k : F) ≠ 0)
    (hidx : IdxOkT (if p.hasDup then p.dupCount else o.attrCount) t)
    (hlabels : ((leaves t).map (uniqueLabel (if p.hasDup then p.dupCount else o.attrCount))).Nodup) (hclear : Clear t)
    (hsat : sat A t = true) :
    ∃ o' p', recoverCoefficients S false o (some p) A = .ok (true, o', p') ∧ ∀ m, Ways (· ∈ A) t m → o'.results.length ≤ m := by
  obtain ⟨t', o', -, h2, h3, h4, h5⟩ := recover_rows S o p t A hroot hao hfresh hsolve hidx hlabels hsat
  refine ⟨o', _, h4, fun m hm => ?_⟩
  rw [h5]
  exact taken_least A t' (h2.same.andOr.mpr hao) h2.good h3 (h2.same.clear.mpr hclear) (by rw [h2.mark, hsat]) m
    ((h2.same.ways m).mpr hm)

theorem plain_policy {p : Policy} {t : TNode} (hdup : p.hasDup = false) (hnd : ((leaves t).map Leaf.label).Nodup) :
    IdxOkT (if p.hasDup then p.dupCount else ({} : LSSS F).attrCount) t ∧
    ((leaves t).map (uniqueLabel (if p.hasDup then p.dupCount else ({} : LSSS F).attrCount))).Nodup := by
  simp only [hdup, Bool.false_eq_true, if_false]
  refine ⟨fun l _ h => by simp [SMap.find] at h, ?_⟩
  have : uniqueLabel ({} : LSSS F).attrCount = Leaf.label := by funext l; simp [uniqueLabel, SMap.find]
  rw [this]; exact hnd

/-- Exactly which policies are recovered with the fewest rows, whatever the attributes and however `std::sort`
orders equal entries: those that are `Clear`. For policies in which no attribute is repeated; "fewest" in terms
of attributes: no smaller part of the attributes satisfies the policy. -/
theorem C138_exact (p : Policy) (t : TNode) (hroot : p.root = some t) (hdup : p.hasDup = false) (hao : AndOr t) (hfresh : Fresh t)
    (hsolve : BinAnd t ∨ ∀ k, 0 < k → k ≤ t.size → (k : F) ≠ 0) (hnd : ((leaves t).map Leaf.label).Nodup) :
    Clear t ↔ ∀ (S : StdSort) (A : List Bytes), sat A t = true →
      ∃ (o' : LSSS F) (p' : Policy), recoverCoefficients S false {} (some p) A = .ok (true, o', p') ∧
        ∀ B : List Bytes, (∀ b ∈ B, b ∈ A) → sat B t = true → o'.results.length ≤ B.length := by
  obtain ⟨g1, g2⟩ := plain_policy (F := F) hdup hnd
  constructor
  · intro hcl S A hs
    obtain ⟨o', p', h1, h2⟩ := C138_fewest_partial S ({} : LSSS F) p t A hroot hao hfresh hsolve g1 g2 hcl hs
    refine ⟨o', p', h1, fun B hB hb => ?_⟩
    obtain ⟨n, n1, n2⟩ := sat_ways_distinct hao hnd hb
    exact (h2 n (ways_mono hB n2)).trans n1
  · intro h
    by_contra hcl
    obtain ⟨S, A, -, a2, a3⟩ := not_clear t hao hfresh hnd hcl
    obtain ⟨o', p', h1, h2⟩ := h S A a2
    obtain ⟨t', o'', k1, -, -, k4, k5⟩ := recover_rows S ({} : LSSS F) p t A hroot hao hfresh hsolve g1 g2 a2
    rw [k4] at h1
    simp only [Res.ok.injEq, Prod.mk.injEq, true_and] at h1
    obtain ⟨m, m1, m2⟩ := a3 t' k1
    obtain ⟨B, b1, b2, b3⟩ := ways_sat m1
    have := h2 B b2 b3
    rw [← h1.1, k5] at this
    omega

/-- For policies in which every subnode of an OR gate is an attribute or a conjunction of attributes the number
that `checkIfSatisfied` reports is the number of rows that recovery uses, and no way uses fewer.
Missing: other policies. -/
theorem C138_reported_partial (S : StdSort) (o : LSSS F) (p : Policy) (t : TNode) (A : List Bytes) (hroot : p.root = some t)
    (hao : AndOr t) (hfresh : Fresh t) (hsolve : BinAnd t ∨ ∀ k, 0 < k → k ≤ t.size → (k : F) ≠ 0)
    (hidx : IdxOkT (if p.hasDup then p.dupCount else o.attrCount) t)
    (hlabels : ((leaves t).map (uniqueLabel (if p.hasDup then p.dupCount else o.attrCount))).Nodup) (hflat : Flat t)
    (hsat : sat A t = true) :
    ∃ (o' : LSSS F) (p' : Policy) (n : Nat), recoverCoefficients S false o (some p) A = .ok (true, o', p') ∧
      checkIfSatisfied S t A = .ok ((true, (n : Int)), resetFlags t) ∧ o'.results.length = n ∧
      Ways (· ∈ A) t n ∧ ∀ m, Ways (· ∈ A) t m → n ≤ m := by
  obtain ⟨t', o', h1, h2, h3, h4, h5⟩ := recover_rows S o p t A hroot hao hfresh hsolve hidx hlabels hsat
  have hm : t'.mark = true := by rw [h2.mark, hsat]
  have hao' := h2.same.andOr.mpr hao
  have hfl' := h2.same.flat.mpr hflat
  refine ⟨o', _, taken t', h4, ?_, h5, (h2.same.ways _).mp (taken_way A t' hao' h2.good hm), fun m hw => ?_⟩
  · simp only [checkIfSatisfied, h1, Res.ok_bind, flat_report A t' hao' h2.good h3 hfl' hm, hm, if_true]
    rw [h2.same]
  · exact taken_least A t' hao' h2.good h3 (flat_clear t' hfl') hm m ((h2.same.ways m).mpr hw)

/-! ### Violations -/

/-- `x`, `xx`, … : different names. -/
def xName (n : Nat) : Bytes := List.replicate (n + 1) 120

/-- The tree of `x and xx and …`, with `n + 1` attributes. -/
def xChain : Nat → TNode
  | 0 => lf (xName 0) 0
  | n + 1 => and2 (xChain n) (lf (xName (n + 1)) 0)

/-- The names of the chain. -/
def xNames (n : Nat) : List Bytes := (leaves (xChain n)).map Leaf.label

theorem xNames_succ (n : Nat) : xNames (n + 1) = xNames n ++ [xName (n + 1)] := by
  simp [xNames, xChain, and2, lf, leaves, leavesL, Leaf.label, completeLabel]

theorem mem_xNames : ∀ {n : Nat} {b : Bytes}, b ∈ xNames n → ∃ i ≤ n, b = xName i
  | 0, b, h => by
    simp only [xNames, xChain, lf, leaves, List.map_cons, List.map_nil, List.mem_singleton] at h
    exact ⟨0, by omega, by simpa [Leaf.label, completeLabel] using h⟩
  | n + 1, b, h => by
    rw [xNames_succ, List.mem_append] at h
    rcases h with h | h
    · obtain ⟨i, hi, e⟩ := mem_xNames h; exact ⟨i, by omega, e⟩
    · exact ⟨n + 1, by omega, by simpa using h⟩

theorem xName_inj {i j : Nat} (h : xName i = xName j) : i = j := by
  have := congrArg List.length h
  simpa [xName] using this

theorem xNames_nodup : ∀ n : Nat, (xNames n).Nodup
  | 0 => by simp [xNames, xChain, lf, leaves]
  | n + 1 => by
    rw [xNames_succ, List.nodup_append]
    refine ⟨xNames_nodup n, by simp, ?_⟩
    intro a ha b hb e
    obtain ⟨i, hi, rfl⟩ := mem_xNames ha
    rw [List.mem_singleton] at hb
    subst hb
    have := xName_inj e; omega

theorem xChain_shape : ∀ n : Nat, AndOr (xChain n) ∧ BinAnd (xChain n) ∧ Fresh (xChain n) ∧ (xChain n).flags.visited = false
  | 0 => ⟨trivial, trivial, trivial, rfl⟩
  | n + 1 => by
    obtain ⟨h1, h2, h3, h4⟩ := xChain_shape n
    exact ⟨⟨.inl rfl, by simp, h1, trivial, trivial⟩, ⟨by simp, h2, trivial, trivial⟩, ⟨h4, h3, rfl, trivial, trivial⟩, rfl⟩

theorem xChain_ways {H : Bytes → Prop} : ∀ {n k : Nat}, Ways H (xChain n) k → k = n + 1
  | 0, k, h => (ways_leaf.mp h).2
  | n + 1, k, h => by
    obtain ⟨ns, h1, rfl⟩ := ways_and.mp h
    cases h1 with
    | cons h1 h2 =>
      cases h2 with
      | cons h2 h3 =>
        cases h3
        rw [xChain_ways h1]
        have := (ways_leaf.mp h2).2
        subst this; simp

/-- The tree of `y and z`. -/
def yz : TNode := and2 (lf b!"y" 0) (lf b!"z" 0)

theorem yz_ways {H : Bytes → Prop} {k : Nat} (h : Ways H yz k) : k = 2 := by
  obtain ⟨ns, h1, rfl⟩ := ways_and.mp h
  cases h1 with
  | cons h1 h2 =>
    cases h2 with
    | cons h2 h3 =>
      cases h3
      have e1 := (ways_leaf.mp h1).2
      have e2 := (ways_leaf.mp h2).2
      subst e1 e2; rfl

theorem not_xNames {n : Nat} {b : UInt8} (hb : b ≠ 120) : [b] ∉ xNames n := by
  intro h
  obtain ⟨i, -, e⟩ := mem_xNames h
  simp only [xName, List.replicate_succ, List.cons.injEq] at e
  exact hb e.1

theorem one_is_chosen (S : StdSort) (A : List Bytes) (c d : TNode) (t' : TNode) (hc : AndOr c ∧ Fresh c ∧ c.flags.visited = false)
    (hd : AndOr d ∧ Fresh d ∧ d.flags.visited = false) (sc : sat A c = true) (sd : sat A d = true) {k : Nat} (kc : c.direct = k)
    (kd : d.direct = k) (h : scan S A (or2 c d) = .ok t') :
    ∃ i n rest, S.fn [(0, k), (1, k)] = (i, n) :: rest ∧ (i = 0 ∧ Ways (· ∈ A) c (taken t') ∨ i = 1 ∧ Ways (· ∈ A) d (taken t')) := by
  obtain ⟨c', c1, c2⟩ := scan_ok S A c hc.1 hc.2.1
  obtain ⟨d', d1, d2⟩ := scan_ok S A d hd.1 hd.2.1
  have hl : scanL S A [c, d] = .ok [c', d'] := by simp [scanL, hc.2.2, hd.2.2, c1, d1]
  have hm : [c', d'].any TNode.mark = true := by simp [c2.mark, sc]
  have kc' : c'.direct = k := by rw [← direct_reset, c2.same, direct_reset, kc]
  have kd' : d'.direct = k := by rw [← direct_reset, d2.same, direct_reset, kd]
  have hor : orList [c', d'] 0 = [(0, k), (1, k)] := by
    have e1 : (if c'.numSubnodes = 0 then 1 else c'.numSubnodes) = k := kc'
    have e2 : (if d'.numSubnodes = 0 then 1 else d'.numSubnodes) = k := kd'
    simp [orList, c2.mark, d2.mark, sc, sd, e1, e2]
  obtain ⟨i, n, rest, z, g1, g2, g3, -, g5⟩ := or_choice S hl hm h
  rw [hor] at g1
  refine ⟨i, n, rest, g1, ?_⟩
  have way : ∀ (c c' : TNode), AndOr c → Scanned A c c' → c'.mark = true → Ways (· ∈ A) c (taken c') :=
    fun c c' hc h hm => (h.same.ways _).mp (taken_way A c' (h.same.andOr.mpr hc) h.good hm)
  match i, g2 with
  | 0, g2 => obtain rfl : c' = z := by simpa using g2
             exact .inl ⟨rfl, by rw [g5]; exact way c c' hc.1 c2 g3⟩
  | 1, g2 => obtain rfl : d' = z := by simpa using g2
             exact .inr ⟨rfl, by rw [g5]; exact way d d' hd.1 d2 g3⟩
  | i + 2, g2 => simp at g2

/-- Recovery does not use the fewest rows: however `std::sort` orders equal entries, for every number of
attributes above two there is a policy of two conjunctions (of the shape the parser makes, with different
attributes) for which recovery uses that many rows, though two of the attributes at hand satisfy it. -/
theorem C138_rows_violated (S : StdSort) (n : Nat) : ∃ (t : TNode) (A : List Bytes), AndOr t ∧ BinAnd t ∧ Fresh t ∧
    ((leaves t).map Leaf.label).Nodup ∧ sat A t = true ∧ (∃ B : List Bytes, (∀ b ∈ B, b ∈ A) ∧ sat B t = true ∧ B.length = 2) ∧
    ∃ (o' : LSSS F) (p' : Policy), recoverCoefficients S false {} (some { root := some t }) A = .ok (true, o', p') ∧
      o'.results.length = n + 3 := by
  let A := xNames (n + 2) ++ [b!"y", b!"z"]
  obtain ⟨x1, x2, x3, x4⟩ := xChain_shape (n + 2)
  have sx : sat A (xChain (n + 2)) = true :=
    sat_all _ x1 fun l hl => List.mem_append.mpr (.inl (List.mem_map.mpr ⟨l, hl, rfl⟩))
  have sy : ∀ B : List Bytes, b!"y" ∈ B → b!"z" ∈ B → sat B yz = true := by
    intro B h1 h2
    have h1 : completeLabel [] b!"y" ∈ B := h1
    have h2 : completeLabel [] b!"z" ∈ B := h2
    simp [yz, and2, lf, sat, satL, h1, h2]
  have sy' : sat A yz = true := sy A (by simp [A]) (by simp [A])
  have yok : AndOr yz ∧ BinAnd yz ∧ Fresh yz ∧ yz.flags.visited = false :=
    ⟨⟨.inl rfl, by simp, trivial, trivial, trivial⟩, ⟨by simp, trivial, trivial, trivial⟩, ⟨rfl, trivial, rfl, trivial, trivial⟩, rfl⟩
  have finish : ∀ c d : TNode, (AndOr c ∧ BinAnd c ∧ Fresh c ∧ c.flags.visited = false) → (AndOr d ∧ BinAnd d ∧ Fresh d ∧ d.flags.visited = false) →
      ((leaves (or2 c d)).map Leaf.label).Nodup → sat A (or2 c d) = true → sat [b!"y", b!"z"] (or2 c d) = true →
      (∀ t', scan S A (or2 c d) = .ok t' → taken t' = n + 3) →
      ∃ (t : TNode) (A : List Bytes), AndOr t ∧ BinAnd t ∧ Fresh t ∧
        ((leaves t).map Leaf.label).Nodup ∧ sat A t = true ∧ (∃ B : List Bytes, (∀ b ∈ B, b ∈ A) ∧ sat B t = true ∧ B.length = 2) ∧
        ∃ (o' : LSSS F) (p' : Policy), recoverCoefficients S false {} (some { root := some t }) A = .ok (true, o', p') ∧
          o'.results.length = n + 3 := by
    intro c d hc hd hnd hs hs2 ht
    have ao : AndOr (or2 c d) := ⟨.inr rfl, by simp, hc.1, hd.1, trivial⟩
    have ba : BinAnd (or2 c d) := ⟨by simp, hc.2.1, hd.2.1, trivial⟩
    have fr : Fresh (or2 c d) := ⟨hc.2.2.2, hc.2.2.1, hd.2.2.2, hd.2.2.1, trivial⟩
    obtain ⟨g1, g2⟩ := plain_policy (F := F) (p := { root := some (or2 c d) }) (t := or2 c d) rfl hnd
    obtain ⟨t', o', k1, -, -, k4, k5⟩ := recover_rows S ({} : LSSS F) { root := some (or2 c d) } (or2 c d) A rfl ao fr (.inl ba) g1 g2 hs
    exact ⟨or2 c d, A, ao, ba, fr, hnd, hs, ⟨[b!"y", b!"z"], by simp [A], hs2, rfl⟩, o', _, k4, by rw [k5, ht t' k1]⟩
  have hperm := S.perm [(0, 2), (1, 2)]
  have lyz : (leaves yz).map Leaf.label = [b!"y", b!"z"] := rfl
  have hdis : ∀ a ∈ xNames (n + 2), ∀ b ∈ [b!"y", b!"z"], a ≠ b := by
    intro a ha b hb e
    subst e
    rcases List.mem_cons.mp hb with h | h
    · subst h; exact not_xNames (by decide) ha
    · rw [List.mem_singleton] at h; subst h; exact not_xNames (by decide) ha
  have nyz : ([b!"y", b!"z"] : List Bytes).Nodup := by decide
  rcases hl : S.fn [(0, 2), (1, 2)] with _ | ⟨⟨i, m⟩, rest⟩
  · rw [hl] at hperm; exact absurd hperm.length_eq (by simp)
  · have hi : i = 0 ∨ i = 1 := by
      have := (hperm.mem_iff (a := (i, m))).mp (by rw [hl]; simp)
      simp at this; omega
    rcases hi with rfl | rfl
    · refine finish (xChain (n + 2)) yz ⟨x1, x2, x3, x4⟩ yok ?_ ?_ ?_ fun t' ht => ?_
      · have : (leaves (or2 (xChain (n + 2)) yz)).map Leaf.label = xNames (n + 2) ++ [b!"y", b!"z"] := by
          simp only [or2, leaves, leavesL, List.append_nil, List.map_append, lyz]; rfl
        rw [this, List.nodup_append]
        exact ⟨xNames_nodup _, nyz, hdis⟩
      · simp [or2, sat, satL, sx]
      · simp [or2, sat, satL, sy [b!"y", b!"z"] (by simp) (by simp)]
      · obtain ⟨i, k, r, g1, g2⟩ := one_is_chosen S A _ _ t' ⟨x1, x3, x4⟩ ⟨yok.1, yok.2.2⟩ sx sy' (k := 2) rfl rfl ht
        rw [hl] at g1
        simp only [List.cons.injEq, Prod.mk.injEq] at g1
        rcases g2 with ⟨-, h⟩ | ⟨h, -⟩
        · exact xChain_ways h
        · omega
    · refine finish yz (xChain (n + 2)) yok ⟨x1, x2, x3, x4⟩ ?_ ?_ ?_ fun t' ht => ?_
      · have : (leaves (or2 yz (xChain (n + 2)))).map Leaf.label = [b!"y", b!"z"] ++ xNames (n + 2) := by
          simp only [or2, leaves, leavesL, List.append_nil, List.map_append, lyz]; rfl
        rw [this, List.nodup_append]
        exact ⟨nyz, xNames_nodup _, fun a ha b hb e => hdis b hb a ha e.symm⟩
      · simp [or2, sat, satL, sx]
      · simp [or2, sat, satL, sy [b!"y", b!"z"] (by simp) (by simp)]
      · obtain ⟨i, k, r, g1, g2⟩ := one_is_chosen S A _ _ t' ⟨yok.1, yok.2.2⟩ ⟨x1, x3, x4⟩ sy' sx (k := 2) rfl rfl ht
        rw [hl] at g1
        simp only [List.cons.injEq, Prod.mk.injEq] at g1
        rcases g2 with ⟨h, -⟩ | ⟨-, h⟩
        · omega
        · exact xChain_ways h

/-- What is reported when only the first subnode of an OR gate is satisfied. -/
theorem reported_left {A : List Bytes} {c d t' : TNode} (hao : AndOr (or2 c d)) (h2 : Scanned A (or2 c d) t') (h3 : Ranked A t')
    (sc : sat A c = true) (sd : sat A d = false) : t'.flags.sat = some (c.direct : Int) := by
  have hm : t'.mark = true := by rw [h2.mark]; simp [or2, sat, satL, sc]
  have hsame := h2.same
  have hao' := h2.same.andOr.mpr hao
  have hgood := h2.good
  cases t' with
  | leaf => simp [SameTree, resetFlags, or2] at hsame
  | gate fl ty thr subs =>
    simp only [SameTree, resetFlags, or2, TNode.gate.injEq, resetFlagsL_eq, List.map_cons, List.map_nil] at hsame
    obtain ⟨-, rfl, -, hsubs⟩ := hsame
    obtain ⟨l, z, r, e, hcm, -, -⟩ := hgood.2.1 hm rfl
    have hc : z ∈ subs := by rw [e]; simp
    have hc2 : resetFlags z ∈ subs.map resetFlags := List.mem_map.mpr ⟨z, hc, rfl⟩
    rw [hsubs] at hc2
    simp only [List.mem_cons, List.not_mem_nil, or_false] at hc2
    show fl.sat = _
    rw [(h3.2.1 hm rfl z hc hcm).1]
    rcases hc2 with h | h
    · rw [← direct_reset z, h, direct_reset]
    · exfalso
      have := taken_way A z ((AndOrL_iff _).1 hao'.2.2 z hc) ((GoodL_iff _ _).1 hgood.2.2 z hc) hcm
      rw [← ways_reset, h, ways_reset] at this
      have := sat_of_ways this
      rw [sd] at this
      cases this

/-- Recovery and the report for `c or d` when only `c` is satisfied. -/
theorem left_only (S : StdSort) (A : List Bytes) {c d : TNode} (hao : AndOr (or2 c d)) (hba : BinAnd (or2 c d)) (hfr : Fresh (or2 c d))
    (hnd : ((leaves (or2 c d)).map Leaf.label).Nodup) (sc : sat A c = true) (sd : sat A d = false) :
    checkIfSatisfied S (or2 c d) A = .ok ((true, (c.direct : Int)), resetFlags (or2 c d)) ∧
    ∃ (o' : LSSS F) (p' : Policy), recoverCoefficients S false {} (some { root := some (or2 c d) }) A = .ok (true, o', p') ∧
      Ways (· ∈ A) c o'.results.length := by
  have hs : sat A (or2 c d) = true := by simp [or2, sat, satL, sc]
  obtain ⟨g1, g2⟩ := plain_policy (F := F) (p := { root := some (or2 c d) }) (t := or2 c d) rfl hnd
  obtain ⟨t', o', k1, k2, k3, k4, k5⟩ := recover_rows S ({} : LSSS F) { root := some (or2 c d) } (or2 c d) A rfl hao hfr (.inl hba) g1 g2 hs
  have hm : t'.mark = true := by rw [k2.mark, hs]
  refine ⟨?_, o', _, k4, ?_⟩
  · simp only [checkIfSatisfied, k1, Res.ok_bind, reported_left hao k2 k3 sc sd, hm, if_true]
    rw [k2.same]
  · rw [k5]
    have := (k2.same.ways _).mp (taken_way A t' (k2.same.andOr.mpr hao) k2.good hm)
    obtain ⟨z, hz, hw⟩ := ways_or.mp this
    simp only [List.mem_cons, List.not_mem_nil, or_false] at hz
    rcases hz with rfl | rfl
    · exact hw
    · have := sat_of_ways hw
      rw [sd] at this; cases this

/-- The reported number is not the number of leaves that are needed, it can be too small by any amount: with the
attributes of a conjunction of `n + 2` of them, `checkIfSatisfied` reports 2 for `x and xx and … or y`, but every
way of satisfying it, and recovery, uses `n + 2` leaves. -/
theorem C138_reported_violated (S : StdSort) (n : Nat) : ∃ (t : TNode) (A : List Bytes), AndOr t ∧ BinAnd t ∧ Fresh t ∧
    checkIfSatisfied S t A = .ok ((true, 2), resetFlags t) ∧ (∀ m, Ways (· ∈ A) t m → m = n + 2) ∧
    ∃ (o' : LSSS F) (p' : Policy), recoverCoefficients S false {} (some { root := some t }) A = .ok (true, o', p') ∧
      o'.results.length = n + 2 := by
  obtain ⟨x1, x2, x3, x4⟩ := xChain_shape (n + 1)
  have sx : sat (xNames (n + 1)) (xChain (n + 1)) = true := sat_all _ x1 fun l hl => List.mem_map.mpr ⟨l, hl, rfl⟩
  have ao : AndOr (or2 (xChain (n + 1)) (lf b!"y" 0)) := ⟨.inr rfl, by simp, x1, trivial, trivial⟩
  have ba : BinAnd (or2 (xChain (n + 1)) (lf b!"y" 0)) := ⟨by simp, x2, trivial, trivial⟩
  have fr : Fresh (or2 (xChain (n + 1)) (lf b!"y" 0)) := ⟨x4, x3, rfl, trivial, trivial⟩
  have hny : ([121] : Bytes) ∉ xNames (n + 1) := not_xNames (by decide)
  have hnd : ((leaves (or2 (xChain (n + 1)) (lf b!"y" 0))).map Leaf.label).Nodup := by
    have : (leaves (or2 (xChain (n + 1)) (lf b!"y" 0))).map Leaf.label = xNames (n + 1) ++ [[121]] := by
      simp only [or2, lf, leaves, leavesL, List.append_nil, List.map_append]; rfl
    rw [this, List.nodup_append]
    refine ⟨xNames_nodup _, by simp, fun a ha b hb e => ?_⟩
    rw [List.mem_singleton] at hb; subst hb; subst e; exact hny ha
  have sy : sat (xNames (n + 1)) (lf b!"y" 0) = false := by
    have : completeLabel [] b!"y" ∉ xNames (n + 1) := hny
    simp [lf, sat, this]
  obtain ⟨h1, o', p', h2, h3⟩ := left_only (F := F) S (xNames (n + 1)) ao ba fr hnd sx sy
  refine ⟨_, xNames (n + 1), ao, ba, fr, h1, ?_, o', p', h2, xChain_ways h3⟩
  intro m hm
  obtain ⟨c, hc, hw⟩ := ways_or.mp hm
  simp only [List.mem_cons, List.not_mem_nil, or_false] at hc
  rcases hc with rfl | rfl
  · exact xChain_ways hw
  · exact absurd (ways_leaf.mp hw).1 hny

/-- The number can be too large as well: for `a or b or c` and the attribute `a`, 2 is reported and one row is used. -/
theorem C138_too_large_violated (S : StdSort) : ∃ (t : TNode) (A : List Bytes), AndOr t ∧ BinAnd t ∧ Fresh t ∧
    checkIfSatisfied S t A = .ok ((true, 2), resetFlags t) ∧
    ∃ (o' : LSSS F) (p' : Policy), recoverCoefficients S false {} (some { root := some t }) A = .ok (true, o', p') ∧
      o'.results.length = 1 := by
  have ao : AndOr (or2 (or2 (lf b!"a" 0) (lf b!"b" 0)) (lf b!"c" 0)) :=
    ⟨.inr rfl, by simp, ⟨.inr rfl, by simp, trivial, trivial, trivial⟩, trivial, trivial⟩
  have ba : BinAnd (or2 (or2 (lf b!"a" 0) (lf b!"b" 0)) (lf b!"c" 0)) :=
    ⟨by simp, ⟨by simp, trivial, trivial, trivial⟩, trivial, trivial⟩
  have fr : Fresh (or2 (or2 (lf b!"a" 0) (lf b!"b" 0)) (lf b!"c" 0)) :=
    ⟨rfl, ⟨rfl, trivial, rfl, trivial, trivial⟩, rfl, trivial, trivial⟩
  obtain ⟨h1, o', p', h2, h3⟩ := left_only (F := F) S [b!"a"] ao ba fr (by decide) (by decide) (by decide)
  refine ⟨_, [b!"a"], ao, ba, fr, h1, o', p', h2, ?_⟩
  obtain ⟨c, hc, hw⟩ := ways_or.mp h3
  simp only [List.mem_cons, List.not_mem_nil, or_false] at hc
  rcases hc with rfl | rfl <;> exact (ways_leaf.mp hw).2

theorem xChain_flat : ∀ n : Nat, Flat (xChain n)
  | 0 => trivial
  | n + 1 => ⟨by simp, xChain_flat n, trivial, trivial⟩

/-- Comparing reported numbers, as the search for the cheapest key does, prefers the more expensive policy: with
the same attributes, one policy has the smaller number (2 against 3) and needs more rows (`n + 4` against 3). -/
theorem C138_order_violated (S : StdSort) (n : Nat) : ∃ (t u : TNode) (A : List Bytes), AndOr t ∧ BinAnd t ∧ Fresh t ∧
    AndOr u ∧ BinAnd u ∧ Fresh u ∧
    checkIfSatisfied S t A = .ok ((true, 2), resetFlags t) ∧ checkIfSatisfied S u A = .ok ((true, 3), resetFlags u) ∧
    (∃ (o' : LSSS F) (p' : Policy), recoverCoefficients S false {} (some { root := some t }) A = .ok (true, o', p') ∧
      o'.results.length = n + 4) ∧
    ∃ (o' : LSSS F) (p' : Policy), recoverCoefficients S false {} (some { root := some u }) A = .ok (true, o', p') ∧
      o'.results.length = 3 := by
  obtain ⟨x1, x2, x3, x4⟩ := xChain_shape (n + 3)
  obtain ⟨u1, u2, u3, u4⟩ := xChain_shape 2
  have mem : ∀ i ≤ n + 3, xName i ∈ xNames (n + 3) := by
    generalize n + 3 = k
    induction k with
    | zero => intro i hi; obtain rfl : i = 0 := by omega
              exact List.mem_singleton.mpr rfl
    | succ k ih =>
      intro i hi
      rw [xNames_succ, List.mem_append]
      by_cases h : i ≤ k
      · exact .inl (ih i h)
      · obtain rfl : i = k + 1 := by omega
        exact .inr (by simp)
  have sx : sat (xNames (n + 3)) (xChain (n + 3)) = true := sat_all _ x1 fun l hl => List.mem_map.mpr ⟨l, hl, rfl⟩
  have su : sat (xNames (n + 3)) (xChain 2) = true := sat_all _ u1 fun l hl => by
    obtain ⟨i, hi, e⟩ := mem_xNames (List.mem_map.mpr ⟨l, hl, rfl⟩ : l.label ∈ xNames 2)
    rw [e]; exact mem i (by omega)
  have ao : AndOr (or2 (xChain (n + 3)) (lf b!"y" 0)) := ⟨.inr rfl, by simp, x1, trivial, trivial⟩
  have ba : BinAnd (or2 (xChain (n + 3)) (lf b!"y" 0)) := ⟨by simp, x2, trivial, trivial⟩
  have fr : Fresh (or2 (xChain (n + 3)) (lf b!"y" 0)) := ⟨x4, x3, rfl, trivial, trivial⟩
  have hny : ([121] : Bytes) ∉ xNames (n + 3) := not_xNames (by decide)
  have hnd : ((leaves (or2 (xChain (n + 3)) (lf b!"y" 0))).map Leaf.label).Nodup := by
    have : (leaves (or2 (xChain (n + 3)) (lf b!"y" 0))).map Leaf.label = xNames (n + 3) ++ [[121]] := by
      simp only [or2, lf, leaves, leavesL, List.append_nil, List.map_append]; rfl
    rw [this, List.nodup_append]
    refine ⟨xNames_nodup _, by simp, fun a ha b hb e => ?_⟩
    rw [List.mem_singleton] at hb; subst hb; subst e; exact hny ha
  have sy : sat (xNames (n + 3)) (lf b!"y" 0) = false := by
    have : completeLabel [] b!"y" ∉ xNames (n + 3) := hny
    simp [lf, sat, this]
  obtain ⟨h1, o', p', h2, h3⟩ := left_only (F := F) S (xNames (n + 3)) ao ba fr hnd sx sy
  obtain ⟨g1, g2⟩ := plain_policy (F := F) (p := { root := some (xChain 2) }) (t := xChain 2) rfl (xNames_nodup 2)
  obtain ⟨o2, p2, k, r1, r2, r3, r4, -⟩ := C138_reported_partial S ({} : LSSS F) { root := some (xChain 2) } (xChain 2) (xNames (n + 3))
    rfl u1 u3 (.inl u2) g1 g2 (xChain_flat 2) su
  have := xChain_ways r4
  subst this
  exact ⟨_, xChain 2, xNames (n + 3), ao, ba, fr, u1, u2, u3, h1, r2, ⟨o', p', h2, xChain_ways h3⟩, o2, p2, r1, r3⟩

/-! ### The hypotheses can be met -/

theorem xChain_way : ∀ n : Nat, Ways (fun _ => True) (xChain n) (n + 1)
  | 0 => .leaf trivial
  | n + 1 => .all (xChain_way n) (.all (.leaf trivial) .none)

/-- `x and xx and xxx or y and z` is not clear, so by `C138_exact` some order of equal entries wastes rows … -/
example : ¬ Clear (or2 (xChain 2) yz) ∧ AndOr (or2 (xChain 2) yz) ∧ Fresh (or2 (xChain 2) yz) ∧ BinAnd (or2 (xChain 2) yz) ∧
    ((leaves (or2 (xChain 2) yz)).map Leaf.label).Nodup := by
  obtain ⟨x1, x2, x3, x4⟩ := xChain_shape 2
  refine ⟨fun h => ?_, ⟨.inr rfl, by simp, x1, ⟨.inl rfl, by simp, trivial, trivial, trivial⟩, trivial⟩,
    ⟨x4, x3, rfl, ⟨rfl, trivial, rfl, trivial, trivial⟩, trivial⟩, ⟨by simp, x2, ⟨by simp, trivial, trivial, trivial⟩, trivial⟩, by decide +kernel⟩
  have h1 := (List.pairwise_cons.mp (h.1 rfl)).1 yz (by simp)
  have := h1.1 (by decide) 3 2 (xChain_way 2) (.all (.leaf trivial) (.all (.leaf trivial) .none))
  omega

/-- … and `a and b or c` is clear and flat; with all attributes the least number is 1. -/
example : Clear (or2 (and2 (lf b!"a" 0) (lf b!"b" 0)) (lf b!"c" 0)) ∧ Flat (or2 (and2 (lf b!"a" 0) (lf b!"b" 0)) (lf b!"c" 0)) ∧
    sat [b!"a", b!"b", b!"c"] (or2 (and2 (lf b!"a" 0) (lf b!"b" 0)) (lf b!"c" 0)) = true ∧
    Ways (· ∈ [b!"a", b!"b", b!"c"]) (or2 (and2 (lf b!"a" 0) (lf b!"b" 0)) (lf b!"c" 0)) 1 := by
  have hf : Flat (or2 (and2 (lf b!"a" 0) (lf b!"b" 0)) (lf b!"c" 0)) := by
    refine ⟨fun _ c hc => ?_, ⟨fun h => (by cases h), trivial, trivial, trivial⟩, trivial, trivial⟩
    simp only [List.mem_cons, List.not_mem_nil, or_false] at hc
    rcases hc with rfl | rfl
    · exact ⟨rfl, by simp, by simp [lf, TNode.isLeaf]⟩
    · trivial
  exact ⟨flat_clear _ hf, hf, by decide, .one (c := lf b!"c" 0) (by simp) (.leaf (by decide))⟩

end Abe
