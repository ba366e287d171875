import Verif.Proof.CollusionPoly
import Verif.Props.Scheme
/-!
# Collusion of key holders (C113)

Attackers are those of the generic group model (Verif/Spec/Attack.lean); the games run the model of the code
(`cpParams`, `cpKeyBody`, `cpEncBody` and their key-policy counterparts) with all random values from a finite supply.
-/
set_option linter.unusedSimpArgs false
set_option linter.unusedSectionVars false
set_option autoImplicit false
namespace Abe.Scheme
variable {G1 G2 GT : Type} {q : Nat} [Fact q.Prime]
variable [AddCommGroup G1] [Module (ZMod q) G1] [AddCommGroup G2] [Module (ZMod q) G2] [AddCommGroup GT]
  [Module (ZMod q) GT]
variable {m T R n : Nat} {ds : Finset Bytes}

theorem cast_ne_of_lt {N : Nat} (h : N < q) : ∀ k, 0 < k → k ≤ N → (k : ZMod q) ≠ 0 := by
  intro k h0 h1 hk
  rw [ZMod.natCast_eq_zero_iff] at hk
  exact absurd (Nat.le_of_dvd h0 hk) (by omega)

theorem shareRows_label {F : Type} [Field F] [DecidableEq F] (p : Policy) (t : TNode) :
    ∀ row ∈ shareRows (F := F) p t, ∃ l ∈ leaves t, row.2.1 = l.label := by
  intro row hrow
  rcases SMap.mem_addRows _ _ _ hrow with h | h
  · obtain ⟨x, hx, rfl⟩ := List.mem_map.mp h
    obtain ⟨⟨l, i⟩, hx', rfl⟩ := List.mem_map.mp hx
    refine ⟨l, ?_, rfl⟩
    rw [← (rleaves_perm t).mem_iff]
    exact List.fst_mem_of_mem_zipIdx hx'
  · simp at h

theorem shareRows_length {F : Type} [Field F] [DecidableEq F] (p : Policy) (t : TNode) :
    (shareRows (F := F) p t).length ≤ (leaves t).length := by
  have h : ∀ (l : List (Bytes × (Bytes × ShareFn F))) (m : SMap (Bytes × ShareFn F)),
      (SMap.addRows m l).length ≤ m.length + l.length := by
    intro l
    induction l with
    | nil => intro m; simp [SMap.addRows]
    | cons x l ih =>
      intro m
      have h1 := ih (SMap.insert x.1 x.2 m)
      have h2 : ∀ m : SMap (Bytes × ShareFn F), (SMap.insert x.1 x.2 m).length ≤ m.length + 1 := by
        intro m
        induction m with
        | nil => simp [SMap.insert]
        | cons y m ih =>
          simp only [SMap.insert]
          split
          · simp
          · split
            · simp
            · simpa using ih
      have h3 := h2 m
      simp only [SMap.addRows, List.length_cons]
      omega
  have := h ((emitFn t).map fun x => (uniqueLabel (effCount ({} : LSSS F) p) x.1, (x.1.label, x.2))) []
  unfold shareRows
  refine this.trans ?_
  simp [emitFn, (rleaves_perm t).length_eq]

/-- The draws covered. -/
theorem Covers.draws {g : Game G1 G2 GT} {p : Policy} (h : Covers g q T R ds p) {t : TNode} (hroot : p.root = some t)
    (hpos : PosGates t) (hidx : ∀ l ∈ leaves t, l.idx.isSome) : Abe.draws t ≤ T :=
  h.1 0 (fun _ => 0) _ _ (shareSecret_ok {} p t 0 _ hroot hpos fun l hl _ => hidx l hl)

/-- If the exponents hide the secret, few random values let an attack compute a multiple of it. -/
theorem few_hits {g : Game G1 G2 GT} (hb : Bilinear q g.env.e) (hE : g.env.e g.g1 g.g2 ≠ 0) {d : Nat} (hd : 2 ≤ d)
    {x : Expo q} (hs : Small m T R n ds d x) (hh : Hides m T R n ds x) (P : Coins q → Views G1 G2 GT → Prop)
    (hP : ∀ c v, P c v → x.Of g c v) (A : Attack q) (b : ZMod q) (hb0 : b ≠ 0) :
    Nat.card { y : CoinIx m T R n ds → ZMod q //
        ∃ v, P (Coins.of y) v ∧ A.run g.env.e v = b • g.secret (Coins.of y) } * q ≤
      d * q ^ Fintype.card (CoinIx m T R n ds) := by
  have hpoly : PolyFn m T R n ds d (A.expo x + (-b) • fun c : Coins q => c.s * c.alpha) :=
    (expo_poly A x (by omega) hs.pair hs.target).add (((PolyFn.s.mul PolyFn.alpha).smul _).mono (by omega))
  have hcard := few_zeros hpoly (hh A b hb0)
  refine le_trans (Nat.mul_le_mul_right _ ?_) hcard
  have hset : ∀ y : CoinIx m T R n ds → ZMod q,
      (∃ v, P (Coins.of y) v ∧ A.run g.env.e v = b • g.secret (Coins.of y)) →
      (A.expo x + (-b) • fun c : Coins q => c.s * c.alpha) (Coins.of y) = 0 := by
    rintro y ⟨v, hv, hrun⟩
    rw [run_expo hb A (hP _ _ hv)] at hrun
    have h3 : (A.expo x + (-b) • fun c : Coins q => c.s * c.alpha) (Coins.of y) • g.env.e g.g1 g.g2 = 0 := by
      simp only [Pi.add_apply, Pi.smul_apply, smul_eq_mul, add_smul, hrun, Game.secret]
      module
    rcases smul_eq_zero.mp h3 with h | h
    · exact h
    · exact absurd h hE
  exact Nat.card_le_card_of_injective (fun y => ⟨y.1, hset y.1 y.2⟩) (by
    intro y z h
    simp only [Subtype.mk.injEq] at h
    exact Subtype.ext h)

/-! ## C113 ciphertext-policy -/

/-- The exponents of what colluding key holders see. -/
theorem cp_expo (g : Game G1 G2 GT) (hnd : g.env.ndebug = false) (hready : g.ctx.ready = true) (s : Bytes) (p : Policy)
    (hp : createPolicyTree g.env.mktime s = .ok (some p)) (hsize : SmallerThan q p) (h2 : 2 < q)
    (als : List AttrList) (hunsat : ∀ al ∈ als, ¬ Satisfies al.attrs p)
    (hclash : NoDigestClash g (policyNames p ++ als.flatMap AttrList.attrs))
    (hm : 1 ≤ m) (hn : als.length ≤ n) (hcov : Covers g q T R ds p) :
    (∀ c : Coins q, ∃ v, CpGame g p als c v) ∧ ∃ x : Expo q, (∀ c v, CpGame g p als c v → x.Of g c v) ∧
      Small m T R n ds 4 x ∧ Hides m T R n ds x := by
  obtain ⟨hcomp, t, hroot, hao, hbin, hfr, hidx⟩ := accepted_shape hp
  have hpos := hao.pos
  have hview := fun c : Coins q => cpGame_view g hnd hready s p t hcomp hroot hpos hidx als c
  refine ⟨fun c => ⟨_, (hview c _).mpr rfl⟩, ?_⟩
  obtain ⟨x, hx, hU, hV, hW⟩ := cpView_expo g s (shareRows (F := ZMod q) p t) als
  set rows := digestRows g (shareRows (F := ZMod q) p t) with hrows
  set digs := digestLists g als with hdigs
  have hadd : ∀ row ∈ rows, ∀ s d (tape δ : Nat → ZMod q),
      row.2 (s + d) (fun i => tape i + δ i) = row.2 s tape + row.2 d δ := by
    intro row hr
    obtain ⟨y, hy, rfl⟩ := List.mem_map.mp hr
    exact add_rows p t y hy
  have hzero : ∀ row ∈ rows, row.2 0 (fun _ => 0) = 0 := by
    intro row hr
    obtain ⟨y, hy, rfl⟩ := List.mem_map.mp hr
    exact zero_rows p t y hy
  have h20 : (2 : ZMod q) ≠ 0 := by
    have := cast_ne_of_lt (q := q) (N := 2) h2 2 (by omega) (by omega)
    exact_mod_cast this
  have hchar := cast_ne_of_lt (q := q) (hsize t hroot)
  have hhide : ∀ k : Nat, ∃ δ : Nat → ZMod q, (∀ j, Abe.draws t ≤ j → δ j = 0) ∧ ∀ al, als[k]? = some al →
      ∀ row ∈ shareRows (F := ZMod q) p t, row.2.1 ∈ al.attrs → row.2.2 1 δ = 0 := by
    intro k
    cases hk : als[k]? with
    | none => exact ⟨fun _ => 0, by simp, by simp⟩
    | some al =>
      have hs : sat al.attrs t = false := by
        by_contra h
        exact hunsat al (List.mem_of_getElem? hk) ⟨t, hroot, by simpa using h⟩
      obtain ⟨δ, h1, h2⟩ := hide_rows p t al.attrs hpos hchar hs
      refine ⟨δ, h1, ?_⟩
      intro al' h'
      simp only [Option.some.injEq] at h'
      subst h'
      exact h2
  choose δ hδ0 hδ1 using hhide
  have hnames : ∀ row ∈ shareRows (F := ZMod q) p t, row.2.1 ∈ policyNames p := by
    intro row hr
    obtain ⟨l, hl, e⟩ := shareRows_label p t row hr
    simp only [policyNames, hroot, e]
    exact List.mem_map.mpr ⟨l, hl, rfl⟩
  have hδ : ∀ (k : Nat) (ds : List Bytes), digs[k]? = some ds → ∀ row ∈ rows, row.1 ∈ ds → row.2 1 (δ k) = 0 := by
    intro k ds' hk row hr hd
    obtain ⟨y, hy, rfl⟩ := List.mem_map.mp hr
    simp only [hdigs, digestLists, List.getElem?_map, Option.map_eq_some_iff] at hk
    obtain ⟨al, hal, rfl⟩ := hk
    obtain ⟨a, ha, he⟩ := List.mem_map.mp hd
    refine hδ1 k al hal y hy ?_
    have := hclash y.2.1 (by simp [hnames y hy]) a (by
      simp only [List.mem_append, List.mem_flatMap]
      exact .inr ⟨al, List.mem_of_getElem? hal, ha⟩) he.symm
    rw [this]; exact ha
  refine ⟨x, fun c v hv => by rw [(hview c v).mp hv]; exact hx c,
    ⟨fun s => (cpU_poly hadd (hU s)).mono (by omega), fun l => (cpV_poly (hV l)).mono (by omega),
      fun s l => (cpU_poly hadd (hU s)).mul (cpV_poly (hV l)), hW⟩, ?_⟩
  intro A b hb0
  set f : Fn q := A.expo x + (-b) • fun c => c.s * c.alpha with hf
  have hΛ : cpΛ rows δ digs.length f ≠ 0 := by
    rw [hf, map_add, map_smul, cpΛ_secret, expo_vanish A x _ (fun s l => cpΛ_mul h20 hzero hδ (hU s) (hV l)) (by
      intro l
      rcases hW l with h | h
      · rw [h, map_zero]
      · rw [h, cpΛ_target])]
    simpa using hb0
  have hlen : digs.length = als.length := by simp [hdigs, digestLists]
  by_contra hcon
  simp only [not_exists, not_not] at hcon
  have hall : ∀ c : Coins q, Within m T R n ds c → f c = 0 := by
    intro c hc
    obtain ⟨y, rfl⟩ := hc.of
    exact hcon y
  apply hΛ
  apply cpΛ_congr
  · exact hall _ ⟨by simp [zeroCoins], by simp [zeroCoins], by simp [zeroCoins], by simp [zeroCoins]⟩
  · exact hall _ ⟨by simp [zeroCoins], by simp [zeroCoins], by simp [zeroCoins], by simp [zeroCoins]⟩
  · exact hall _ ⟨by simp [zeroCoins], by simp [zeroCoins], by simp [zeroCoins], by simp [zeroCoins]⟩
  · exact hall _ ⟨by simp [zeroCoins], by simp [zeroCoins], by simp [zeroCoins], by simp [zeroCoins]⟩
  · intro k hk a t' σ
    refine hall _ ⟨?_, by simp [cpC2, zeroCoins], ?_, by simp [cpC2, zeroCoins]⟩
    · intro i j hij
      simp only [cpC2]
      split
      · have hj : T ≤ j := by
          by_contra hj
          exact hij ⟨by omega, by omega⟩
        rw [hδ0 k j ((hcov.draws hroot hpos hidx).trans hj), mul_zero]
      · rfl
    · intro i hi
      simp only [cpC2]
      rw [if_neg (by omega)]
  · intro k hk i r t' h'
    refine hall _ ⟨by simp [cpC3, zeroCoins], ?_, ?_, ?_⟩
    · intro i' j hij
      simp only [cpC3]
      rw [if_neg]
      rintro ⟨rfl, rfl⟩
      apply hij
      refine ⟨by omega, ?_⟩
      have h5 := i.2
      have h6 : rows.length ≤ (policyNames p).length := by
        simp only [hrows, digestRows, List.length_map, policyNames, hroot]
        exact shareRows_length p t
      have := hcov.2.1
      omega
    · intro i' hi
      simp only [cpC3]
      rw [if_neg (by omega)]
    · intro d hd
      simp only [cpC3]
      rw [if_neg]
      rintro rfl
      apply hd
      have hmem : rows[i] ∈ rows := by simp
      obtain ⟨y, hy, he⟩ := List.mem_map.mp hmem
      rw [← he]
      exact hcov.2.2 _ (hnames y hy)

/-- Ciphertext-policy: holders of any number of keys, none of which satisfies the policy, cannot compute the element
the session key is derived from (nor any multiple of it) by any linear combination of pairings of everything they
see, except for at most the fraction `4 / q` of the random values. So whatever relation tells it apart from a random
element holds by accident only. -/
theorem C113_cp_collusion (g : Game G1 G2 GT) (hb : Bilinear q g.env.e) (hE : g.env.e g.g1 g.g2 ≠ 0)
    (hnd : g.env.ndebug = false) (hready : g.ctx.ready = true) (s : Bytes) (p : Policy)
    (hp : createPolicyTree g.env.mktime s = .ok (some p)) (hsize : SmallerThan q p) (h2 : 2 < q)
    (als : List AttrList) (hunsat : ∀ al ∈ als, ¬ Satisfies al.attrs p)
    (hclash : NoDigestClash g (policyNames p ++ als.flatMap AttrList.attrs))
    (hm : 1 ≤ m) (hn : als.length ≤ n) (hcov : Covers g q T R ds p) (A : Attack q) (b : ZMod q) (hb0 : b ≠ 0) :
    (∀ c : Coins q, ∃ v, CpGame g p als c v) ∧
    Nat.card { x : CoinIx m T R n ds → ZMod q //
        ∃ v, CpGame g p als (Coins.of x) v ∧ A.run g.env.e v = b • g.secret (Coins.of x) } * q ≤
      4 * q ^ Fintype.card (CoinIx m T R n ds) := by
  obtain ⟨h1, x, h2, h3, h4⟩ := cp_expo (m := m) g hnd hready s p hp hsize h2 als hunsat hclash hm hn hcov
  exact ⟨h1, few_hits hb hE (by omega) h3 h4 _ h2 A b hb0⟩

/-! ## C113 key-policy -/

/-- The share functions of a policy. -/
def rowsOf (p : Policy) : SMap (Bytes × ShareFn (ZMod q)) :=
  match p.root with
  | some t => shareRows p t
  | none => []

theorem rowsOf_eq {p : Policy} {t : TNode} (h : p.root = some t) : rowsOf (q := q) p = shareRows p t := by
  simp [rowsOf, h]

/-- The exponents of what colluding key holders see, key-policy. -/
theorem kp_expo (g : Game G1 G2 GT) (hnd : g.env.ndebug = false) (hready : g.ctx.ready = true) (al : AttrList) (ps : List Policy)
    (hp : ∀ p ∈ ps, ∃ s, createPolicyTree g.env.mktime s = .ok (some p)) (hsize : ∀ p ∈ ps, SmallerThan q p)
    (hunsat : ∀ p ∈ ps, ¬ Satisfies al.attrs p) (hclash : NoDigestClash g (ps.flatMap policyNames ++ al.attrs))
    (hm : ps.length ≤ m) (hcov : ∀ p ∈ ps, Covers g q T R ds p) :
    (∀ c : Coins q, ∃ v, KpGame g al ps c v) ∧ ∃ x : Expo q, (∀ c v, KpGame g al ps c v → x.Of g c v) ∧
      Small m T R n ds 3 x ∧ Hides m T R n ds x := by
  have hshape : ∀ p ∈ ps, ∃ t, p.root = some t ∧ PosGates t ∧ ∀ l ∈ leaves t, l.idx.isSome := by
    intro p hpm
    obtain ⟨s, hs⟩ := hp p hpm
    obtain ⟨-, t, hroot, hao, -, -, hidx⟩ := accepted_shape hs
    exact ⟨t, hroot, hao.pos, hidx⟩
  set ks : List (Bytes × SMap (Bytes × ShareFn (ZMod q))) := ps.map fun p => (p.compact, rowsOf p) with hks
  have hview := fun c : Coins q => kpGame_view g hnd hready al ps ks (by simp [hks]) (by
    intro i p k h1 h2
    obtain ⟨t, hroot, hpos, hidx⟩ := hshape p (List.mem_of_getElem? h1)
    simp only [hks, List.getElem?_map, h1, Option.map_some, Option.some.injEq] at h2
    subst h2
    exact ⟨t, rfl, hroot, hpos, hidx, rowsOf_eq hroot⟩) c
  refine ⟨fun c => ⟨_, (hview c _).mpr rfl⟩, ?_⟩
  obtain ⟨x, hx, hU, hV, hW⟩ := kpView_expo g al ks
  set keys : List (List (Row q)) := ks.map fun k => digestRows g k.2 with hkeys
  set digs := al.attrs.map fun a => g.env.md (g.k ++ a) with hdigs
  have hget : ∀ (k : Nat) (rows : List (Row q)), keys[k]? = some rows → ∃ p t, ps[k]? = some p ∧ p ∈ ps ∧
      p.root = some t ∧ PosGates t ∧ rows = digestRows g (shareRows p t) := by
    intro k rows hk
    simp only [hkeys, hks, List.getElem?_map, Option.map_map, Option.map_eq_some_iff, Function.comp] at hk
    obtain ⟨p, hpk, rfl⟩ := hk
    have hmem := List.mem_of_getElem? hpk
    obtain ⟨t, hroot, hpos, -⟩ := hshape p hmem
    exact ⟨p, t, hpk, hmem, hroot, hpos, by rw [rowsOf_eq hroot]⟩
  have hgetm : ∀ rows ∈ keys, ∃ (p : Policy) (t : TNode), rows = digestRows g (shareRows p t) := by
    intro rows hr
    obtain ⟨k, hk⟩ := List.mem_iff_getElem?.mp hr
    obtain ⟨p, t, -, -, -, -, h⟩ := hget k rows hk
    exact ⟨p, t, h⟩
  have hadd : ∀ rows ∈ keys, ∀ row ∈ rows, ∀ s d (tape δ : Nat → ZMod q),
      row.2 (s + d) (fun i => tape i + δ i) = row.2 s tape + row.2 d δ := by
    intro rows hrs row hr
    obtain ⟨p, t, rfl⟩ := hgetm rows hrs
    obtain ⟨y, hy, rfl⟩ := List.mem_map.mp hr
    exact add_rows p t y hy
  have hzero : ∀ rows ∈ keys, ∀ row ∈ rows, row.2 0 (fun _ => 0) = 0 := by
    intro rows hrs row hr
    obtain ⟨p, t, rfl⟩ := hgetm rows hrs
    obtain ⟨y, hy, rfl⟩ := List.mem_map.mp hr
    exact zero_rows p t y hy
  have hnames : ∀ p ∈ ps, ∀ t, p.root = some t → ∀ row ∈ shareRows (F := ZMod q) p t, row.2.1 ∈ policyNames p := by
    intro p _ t hroot row hr
    obtain ⟨l, hl, e⟩ := shareRows_label p t row hr
    simp only [policyNames, hroot, e]
    exact List.mem_map.mpr ⟨l, hl, rfl⟩
  have hhide : ∀ k : Nat, ∃ δ : Nat → ZMod q, (∀ j, ¬ (k < m ∧ j < T) → δ j = 0) ∧ ∀ p t, ps[k]? = some p →
      p.root = some t → ∀ row ∈ shareRows (F := ZMod q) p t, row.2.1 ∈ al.attrs → row.2.2 1 δ = 0 := by
    intro k
    cases hk : ps[k]? with
    | none => exact ⟨fun _ => 0, by simp, by simp⟩
    | some p =>
      have hmem := List.mem_of_getElem? hk
      obtain ⟨t, hroot, hpos, hidx⟩ := hshape p hmem
      have hs : sat al.attrs t = false := by
        by_contra h
        exact hunsat p hmem ⟨t, hroot, by simpa using h⟩
      obtain ⟨δ, h1, h2⟩ := hide_rows p t al.attrs hpos (cast_ne_of_lt (hsize p hmem t hroot)) hs
      refine ⟨δ, ?_, ?_⟩
      · intro j hj
        apply h1
        have hkl := (List.getElem?_eq_some_iff.mp hk).1
        have := (hcov p hmem).draws hroot hpos hidx
        by_contra h
        exact hj ⟨by omega, by omega⟩
      · intro p' t' h' hr'
        simp only [Option.some.injEq] at h'
        subst h'
        rw [hroot] at hr'
        simp only [Option.some.injEq] at hr'
        subst hr'
        exact h2
  choose δ hδ0 hδ1 using hhide
  have hδ : ∀ (k : Nat) (rows : List (Row q)), keys[k]? = some rows → ∀ row ∈ rows, row.1 ∈ digs →
      row.2 1 (δ k) = 0 := by
    intro k rows hk row hr hd
    obtain ⟨p, t, hpk, hmem, hroot, hpos, rfl⟩ := hget k rows hk
    obtain ⟨y, hy, rfl⟩ := List.mem_map.mp hr
    obtain ⟨a, ha, he⟩ := List.mem_map.mp hd
    refine hδ1 k p t hpk hroot y hy ?_
    have := hclash y.2.1 (by
      simp only [List.mem_append, List.mem_flatMap]
      exact .inl ⟨p, hmem, hnames p hmem t hroot y hy⟩) a (by simp [ha]) he.symm
    rw [this]; exact ha
  refine ⟨x, fun c v hv => by rw [(hview c v).mp hv]; exact hx c,
    ⟨fun s => (kpU_poly hadd (hU s)).mono (by omega), fun l => (kpV_poly (hV l)).mono (by omega),
      fun s l => (kpU_poly hadd (hU s)).mul (kpV_poly (hV l)), hW⟩, ?_⟩
  intro A b hb0
  set f : Fn q := A.expo x + (-b) • fun c => c.s * c.alpha with hf
  have hΛ : kpΛ keys δ f ≠ 0 := by
    rw [hf, map_add, map_smul, kpΛ_secret, expo_vanish A x _ (fun s l => kpΛ_mul hzero hδ (hU s) (hV l)) (by
      intro l
      rcases hW l with h | h
      · rw [h, map_zero]
      · rw [h, kpΛ_target])]
    simpa using hb0
  have hlen : keys.length = ps.length := by simp [hkeys, hks]
  by_contra hcon
  simp only [not_exists, not_not] at hcon
  have hall : ∀ c : Coins q, Within m T R n ds c → f c = 0 := by
    intro c hc
    obtain ⟨y, rfl⟩ := hc.of
    exact hcon y
  apply hΛ
  apply kpΛ_congr
  · intro s σ
    refine hall _ ⟨?_, by simp [kpC1, zeroCoins], by simp [kpC1, zeroCoins], by simp [kpC1, zeroCoins]⟩
    intro i j hij
    simp only [kpC1]
    rw [hδ0 i j hij, mul_zero]
  · intro k i r s h'
    obtain ⟨p, t, hpk, hmem, hroot, hpos, hrows⟩ := hget k keys[k] (by simp)
    refine hall _ ⟨by simp [kpC3, zeroCoins], ?_, by simp [kpC3, zeroCoins], ?_⟩
    · intro i' j hij
      simp only [kpC3]
      rw [if_neg]
      rintro ⟨rfl, rfl⟩
      apply hij
      have h4 := k.2
      have h5 := i.2
      have h6 : keys[k].length ≤ (policyNames p).length := by
        rw [hrows]
        simp only [digestRows, List.length_map, policyNames, hroot]
        exact shareRows_length p t
      have := (hcov p hmem).2.1
      exact ⟨by omega, by omega⟩
    · intro d hd
      simp only [kpC3]
      rw [if_neg]
      rintro rfl
      apply hd
      have hmem' : keys[k][i] ∈ digestRows g (shareRows p t) := by rw [← hrows]; simp
      obtain ⟨y, hy, he⟩ := List.mem_map.mp hmem'
      rw [← he]
      exact (hcov p hmem).2.2 _ (hnames p hmem t hroot y hy)

/-- Key-policy: holders of keys for any number of policies, none of which the attributes of the ciphertext satisfy,
cannot compute the element the session key is derived from (nor any multiple of it) by any linear combination of
pairings of everything they see, except for at most the fraction `3 / q` of the random values. -/
theorem C113_kp_collusion (g : Game G1 G2 GT) (hb : Bilinear q g.env.e) (hE : g.env.e g.g1 g.g2 ≠ 0)
    (hnd : g.env.ndebug = false) (hready : g.ctx.ready = true) (al : AttrList) (ps : List Policy)
    (hp : ∀ p ∈ ps, ∃ s, createPolicyTree g.env.mktime s = .ok (some p)) (hsize : ∀ p ∈ ps, SmallerThan q p)
    (hunsat : ∀ p ∈ ps, ¬ Satisfies al.attrs p) (hclash : NoDigestClash g (ps.flatMap policyNames ++ al.attrs))
    (hm : ps.length ≤ m) (hcov : ∀ p ∈ ps, Covers g q T R ds p) (A : Attack q) (b : ZMod q) (hb0 : b ≠ 0) :
    (∀ c : Coins q, ∃ v, KpGame g al ps c v) ∧
    Nat.card { x : CoinIx m T R n ds → ZMod q //
        ∃ v, KpGame g al ps (Coins.of x) v ∧ A.run g.env.e v = b • g.secret (Coins.of x) } * q ≤
      3 * q ^ Fintype.card (CoinIx m T R n ds) := by
  obtain ⟨h1, x, h2, h3, h4⟩ := kp_expo (m := m) (n := n) g hnd hready al ps hp hsize hunsat hclash hm hcov
  exact ⟨h1, few_hits hb hE (by omega) h3 h4 _ h2 A b hb0⟩

/-! ## C113 authorised keys

The counterpart: the attackers of this model are strong enough to decrypt with a key that satisfies the policy. -/

/-- The pairings decryption computes, for the rows of `recoverCoefficients`. -/
def cpHonest (md : Bytes → Bytes) (i : Nat) (rows : List (Bytes × (Bytes × ZMod q))) : Attack q where
  pairs := (1, .comp (.ct b!"Cprime"), .key i b!"K") ::
    (rows.map fun row => (-row.2.2, .comp (.key i (elementLabel b!"KX" (hashKey md row.2.1))),
      .ct (elementLabel b!"D" (hashKey md row.1)))) ++
    rows.map fun row => (-row.2.2, .comp (.ct (elementLabel b!"C" (hashKey md row.1))), .key i b!"L")
  targets := []

/-- The pairings decryption computes, key-policy. -/
def kpHonest (md : Bytes → Bytes) (i : Nat) (rows : List (Bytes × (Bytes × ZMod q))) : Attack q where
  pairs := (rows.map fun row => (row.2.2, .comp (.key i (elementLabel b!"D" (hashKey md row.1))), .ct b!"Cpr2")) ++
    rows.map fun row => (-row.2.2, .comp (.ct (elementLabel b!"C" (hashKey md row.2.1))),
      .key i (elementLabel b!"d" (hashKey md row.1)))
  targets := []

theorem sum_map_congr {α : Type} {M : Type} [AddCommGroup M] (l : List α) (f g : α → M) (h : ∀ x ∈ l, f x = g x) :
    (l.map f).sum = (l.map g).sum := by
  rw [List.map_congr_left h]

theorem sum_neg_list {α : Type} {M : Type} [AddCommGroup M] (f : α → M) :
    ∀ l : List α, (l.map fun x => -(f x)).sum = -(l.map f).sum
  | [] => by simp
  | a :: l => by simp [sum_neg_list f l, add_comm]

/-- The bound of `C113_cp_collusion` needs its hypothesis: with one key that satisfies the policy there is an attack
that always computes the element. -/
theorem C113_cp_authorised (g : Game G1 G2 GT) (hb : Bilinear q g.env.e)
    (hnd : g.env.ndebug = false) (hready : g.ctx.ready = true) (s : Bytes) (p : Policy)
    (hp : createPolicyTree g.env.mktime s = .ok (some p)) (als : List AttrList) (i : Nat) (al : AttrList)
    (hi : als[i]? = some al) (hsat : Satisfies al.attrs p)
    (hrows : (rowLabels g.env.md p).Nodup) (hattrs : NoClash g.env.md al.attrs) :
    ∃ A : Attack q, ∀ (c : Coins q) v, CpGame g p als c v → A.run g.env.e v = g.secret c := by
  obtain ⟨hcomp, t0, hroot, hao, hbin, hfr, hidx⟩ := accepted_shape hp
  obtain ⟨t1, hroot', hs⟩ := hsat
  rw [hroot] at hroot'
  simp only [Option.some.injEq] at hroot'
  subst hroot'
  have hrec := fun (x : ZMod q) tape =>
    share_recover g.env.sort p t0 al.attrs x tape hroot hao hbin hfr hidx (unique_of_rowLabels hroot hrows) hs
  obtain ⟨-, co, -, p', -, h2, -⟩ := hrec 0 fun _ => 0
  refine ⟨cpHonest g.env.md i co.results, ?_⟩
  rintro c v ⟨mpk, msk, key, ct, hpm, hv1, hkeys', -, hct, hv2, -, -⟩
  obtain ⟨P, M, hPM, f1, f2, f3, f4, f5, f6, f7⟩ := cpParams_ok (g.envOf c) (g.params c)
  rw [hpm] at hPM
  simp only [Res.ok.injEq, Prod.mk.injEq] at hPM
  obtain ⟨rfl, rfl⟩ := hPM
  obtain ⟨sh, co', n, p'', h1, h2', hsort, hne, hfind, hsum, hkeys⟩ := hrec c.s (c.tape 0)
  rw [h2] at h2'
  simp only [Res.ok.injEq, Prod.mk.injEq, true_and] at h2'
  obtain ⟨rfl, -⟩ := h2'
  have hinj := rows_inj hroot hrows hkeys
  have hkey : v.keys i = cpDk (g.envOf c) (g.params c) al (c.t i) := by
    have := hkeys' i al hi
    simp only [cpKeyBody, getBytes_of f5, getZP_of f6, getG2_of f2, getG2_of f7, usePairing_ok hready, Res.ok_bind,
      deref_some, setComponent_attrs, setComponent_g2, cpKeyLoop_eq, ZMod.natCast_zmod_val, Res.ok.injEq] at this
    rw [← this, cpDk]
  have henc : v.ct = SMap.addRows (SMap.insert b!"Cprime" (.g1 (c.s • g.g1))
          (SMap.insert b!"policy" (.bytes s) [])) (cpRows (g.envOf c) g.k g.g2 (c.a • g.g1) (c.r 0) 0 sh.results) := by
    have hnd' : (g.envOf c).ndebug = false := hnd
    simp only [cpEncBody, getBytes_of f5, getGT_of f4, getG1_of f1, usePairing_ok hready, Res.ok_bind, Coins.draws,
      deref_some, setComponent_bytes, setComponent_g1, hnd', h1, cpEncLoop_eq (g.envOf c) mpk _ _ _ (c.r 0) f2 f3,
      symKeyOf_ok (g.envOf c) _ (.inr rfl : symKeyBytes = 16 ∨ symKeyBytes = 32), hcomp, Res.ok.injEq, Prod.mk.injEq] at hct
    rw [hv2, ← hct.2]
    rfl
  have k2 : SMap.find b!"K" (v.keys i) = some (.g2 (c.alpha • g.g2 + c.t i • (c.a • g.g2))) := by
    rw [hkey]; unfold cpDk; rw [find_attrRow_other _ (by intro u; simp [elementLabel])]; rfl
  have k3 : SMap.find b!"L" (v.keys i) = some (.g2 (c.t i • g.g2)) := by
    rw [hkey]; unfold cpDk; rw [find_attrRow_other _ (by intro u; simp [elementLabel])]; rfl
  have e2 : SMap.find b!"Cprime" v.ct = some (.g1 (c.s • g.g1)) := by
    rw [henc, find_cpRows_other _ (by intro u; simp [elementLabel]), SMap.find_insert, if_pos rfl]
  have hrow : ∀ row ∈ co.results, ∃ ρ : ZMod q,
      SMap.find (elementLabel b!"KX" (hashKey g.env.md row.2.1)) (v.keys i) =
        some (.g1 (c.t i • hashToG1 (g.envOf c) g.k row.2.1)) ∧
      SMap.find (elementLabel b!"C" (hashKey g.env.md row.1)) v.ct =
        some (.g1 (coeffOf sh.results row.1 • (c.a • g.g1) + (-ρ) • hashToG1 (g.envOf c) g.k row.2.1)) ∧
      SMap.find (elementLabel b!"D" (hashKey g.env.md row.1)) v.ct = some (.g2 (ρ • g.g2)) := by
    intro row hr
    obtain ⟨hA, hf⟩ := hfind row hr
    obtain ⟨ρ, g1, g2⟩ := find_cpRows (env := g.envOf c) (k := g.k) (g2 := g.g2) (g1a := c.a • g.g1) (r := c.r 0) hsort hinj
      (SMap.insert b!"Cprime" (.g1 (c.s • g.g1)) (SMap.insert b!"policy" (.bytes s) [])) hf
    rw [hkey, henc]
    exact ⟨ρ, find_attrRow (env := g.envOf c) hattrs _ hA, g2, g1⟩
  choose! ρ hρ using hrow
  have := cp_algebra hb co.results (fun row => row.2.2) (fun row => coeffOf sh.results row.1) ρ
    (fun row => hashToG1 (g.envOf c) g.k row.2.1) g.g1 g.g2 c.alpha c.a c.s (c.t i) hsum
  unfold Game.secret
  rw [← this]
  simp only [Attack.run, cpHonest, List.map_cons, List.map_append, List.map_map, List.sum_cons, List.sum_append,
    List.map_nil, List.sum_nil, add_zero, one_smul, Function.comp_def, Views.src, Views.at, k2, k3, e2, asG1, asG2]
  rw [sum_map_congr co.results _ (fun row => -(g.env.e (row.2.2 • c.t i • hashToG1 (g.envOf c) g.k row.2.1) (ρ row • g.g2))) (by
      intro row hr
      simp only [(hρ row hr).1, (hρ row hr).2.2, asG1, asG2, hb.smul_left]
      module),
    sum_map_congr co.results (fun row => -row.2.2 • g.env.e _ _) (fun row => -(g.env.e (row.2.2 •
      (coeffOf sh.results row.1 • (c.a • g.g1) + (-(ρ row)) • hashToG1 (g.envOf c) g.k row.2.1)) (c.t i • g.g2))) (by
      intro row hr
      simp only [(hρ row hr).2.1, asG1, asG2, hb.smul_left]
      module), zero_add, hb.sum_left]
  simp only [sum_neg_list]
  abel

/-- The bound of `C113_kp_collusion` needs its hypothesis: with a key for one policy that the attributes satisfy there
is an attack that always computes the element. -/
theorem C113_kp_authorised (g : Game G1 G2 GT) (hb : Bilinear q g.env.e)
    (hnd : g.env.ndebug = false) (hready : g.ctx.ready = true) (al : AttrList) (ps : List Policy) (i : Nat) (s : Bytes)
    (p : Policy) (hi : ps[i]? = some p) (hp : createPolicyTree g.env.mktime s = .ok (some p))
    (hsat : Satisfies al.attrs p) (hrows : (rowLabels g.env.md p).Nodup) (hattrs : NoClash g.env.md al.attrs) :
    ∃ A : Attack q, ∀ (c : Coins q) v, KpGame g al ps c v → A.run g.env.e v = g.secret c := by
  obtain ⟨hcomp, t0, hroot, hao, hbin, hfr, hidx⟩ := accepted_shape hp
  obtain ⟨t1, hroot', hs⟩ := hsat
  rw [hroot] at hroot'
  simp only [Option.some.injEq] at hroot'
  subst hroot'
  have hrec := fun (x : ZMod q) tape =>
    share_recover g.env.sort p t0 al.attrs x tape hroot hao hbin hfr hidx (unique_of_rowLabels hroot hrows) hs
  obtain ⟨-, co, -, p', -, h2, -⟩ := hrec 0 fun _ => 0
  refine ⟨kpHonest g.env.md i co.results, ?_⟩
  rintro c v ⟨mpk, msk, key, ct, hpm, hv1, hkeys', -, hct, hv2, -, -⟩
  obtain ⟨P, M, hPM, f1, f2, f3, f4, f5⟩ := kpParams_ok (g.envOf c) (g.params c)
  rw [hpm] at hPM
  simp only [Res.ok.injEq, Prod.mk.injEq] at hPM
  obtain ⟨rfl, rfl⟩ := hPM
  obtain ⟨sh, co', n, p'', h1, h2', hsort, hne, hfind, hsum, hkeys⟩ := hrec c.alpha (c.tape i)
  rw [h2] at h2'
  simp only [Res.ok.injEq, Prod.mk.injEq, true_and] at h2'
  obtain ⟨rfl, -⟩ := h2'
  have hinj := rows_inj hroot hrows hkeys
  have hnd' : (g.envOf c).ndebug = false := hnd
  have hα : (g.params c).alpha = c.alpha := rfl
  have hkey : v.keys i = kpDk (g.envOf c) (g.params c) s (c.r i) sh.results := by
    have h := hkeys' i p hi
    have : kpKeyBody (g.envOf c) g.ctx mpk msk p (c.tape i) (c.r i) =
        .ok (kpDk (g.envOf c) (g.params c) s (c.r i) sh.results) := by
      simp only [kpKeyBody, getBytes_of f4, getZP_of f5, Res.ok_bind,
        deref_some, setComponent_bytes, ZMod.natCast_zmod_val, hnd', h1, hcomp, hα]
      split
      · rename_i h; rw [h]; rfl
      · simp only [usePairing_ok hready, Res.ok_bind, kpKeyLoop_eq (g.envOf c) mpk _ _ _ (c.r i) f1 f2]
        rfl
    rw [this] at h
    simpa using h.symm
  have henc : v.ct = kpCt (g.envOf c) (g.params c) al c.s [] := by
    simp only [kpEncBody, getBytes_of f4, getGT_of f3, getG2_of f2, usePairing_ok hready, Res.ok_bind, Coins.draws,
      deref_some, setComponent_attrs, setComponent_g2, kpEncLoop_eq,
      symKeyOf_ok (g.envOf c) _ (.inr rfl : symKeyBytes = 16 ∨ symKeyBytes = 32), Res.ok.injEq, Prod.mk.injEq] at hct
    rw [hv2, ← hct.2]
    rfl
  have e2 : SMap.find b!"Cpr2" v.ct = some (.g2 (c.s • g.g2)) := by
    rw [henc]; unfold kpCt
    rw [SMap.find_insert, if_neg (by decide), find_attrRow_other _ (by intro u; simp [elementLabel]),
      SMap.find_insert, if_pos rfl]
    rfl
  have hrow : ∀ row ∈ co.results, ∃ ρ : ZMod q,
      SMap.find (elementLabel b!"C" (hashKey g.env.md row.2.1)) v.ct =
        some (.g1 (c.s • hashToG1 (g.envOf c) g.k row.2.1)) ∧
      SMap.find (elementLabel b!"D" (hashKey g.env.md row.1)) (v.keys i) =
        some (.g1 (coeffOf sh.results row.1 • g.g1 + ρ • hashToG1 (g.envOf c) g.k row.2.1)) ∧
      SMap.find (elementLabel b!"d" (hashKey g.env.md row.1)) (v.keys i) = some (.g2 (ρ • g.g2)) := by
    intro row hr
    obtain ⟨hA, hf⟩ := hfind row hr
    obtain ⟨ρ, g1, g2⟩ := find_kpRows (env := g.envOf c) (k := g.k) (g1 := g.g1) (g2 := g.g2) (r := c.r i) hsort hinj
      (SMap.insert b!"input" (.bytes s) []) hf
    rw [hkey, henc]
    refine ⟨ρ, ?_, g1, g2⟩
    unfold kpCt
    rw [SMap.find_insert, if_neg (by simp [elementLabel])]
    exact find_attrRow (env := g.envOf c) hattrs _ hA
  choose! ρ hρ using hrow
  have := kp_algebra hb co.results (fun row => row.2.2) (fun row => coeffOf sh.results row.1) ρ
    (fun row => hashToG1 (g.envOf c) g.k row.2.1) g.g1 g.g2 c.alpha c.s hsum
  unfold Game.secret
  rw [← this]
  simp only [Attack.run, kpHonest, List.map_append, List.map_map, List.sum_append,
    List.map_nil, List.sum_nil, add_zero, Function.comp_def, Views.src, Views.at, e2, asG2]
  rw [sum_map_congr co.results _ (fun row => g.env.e (row.2.2 • (coeffOf sh.results row.1 • g.g1 +
      ρ row • hashToG1 (g.envOf c) g.k row.2.1)) (c.s • g.g2)) (by
      intro row hr
      simp only [(hρ row hr).2.1, asG1, hb.smul_left]),
    sum_map_congr co.results (fun row => -row.2.2 • g.env.e _ _) (fun row => -(g.env.e (row.2.2 • c.s •
      hashToG1 (g.envOf c) g.k row.2.1) (ρ row • g.g2))) (by
      intro row hr
      simp only [(hρ row hr).1, (hρ row hr).2.2, asG1, hb.smul_left]
      module), zero_add, hb.sum_left]
  simp only [sum_neg_list]
  abel

/-! ## Examples -/
namespace CollEx

instance : Fact (Nat.Prime 101) := ⟨by decide +kernel⟩

/-- A game over a field of 101 elements. -/
def game (S : StdSort) : Game (ZMod 101) (ZMod 101) (ZMod 101) where
  env := ⟨Toy.mk0, S, false, fun x y => x * y, fun x => (x ++ List.replicate 32 0).take 32, fun b => (b.length : ZMod 101),
    fun x => [UInt8.ofNat x.val], fun n b => (b ++ List.replicate n 0).take n⟩
  ctx := ⟨101, true, {}⟩
  g1 := 2
  g2 := 3
  k := [7]
  mpkID := b!"mpk"
  mskID := b!"msk"
  uid := []

theorem bilinear (S : StdSort) : Bilinear 101 (game S).env.e :=
  ⟨fun x y z => add_mul x y z, fun x y z => mul_add x y z, fun a x y => mul_assoc a x y, fun a x y => mul_left_comm x a y⟩

theorem nonzero (S : StdSort) : (game S).env.e (game S).g1 (game S).g2 ≠ 0 := by
  show (2 * 3 : ZMod 101) ≠ 0
  decide +kernel

/-- Short names are hashed to different points. -/
theorem noClash (S : StdSort) {l : List Bytes} (h : ∀ x ∈ l, x.length = 1) : NoDigestClash (game S) l := by
  intro x hx y hy he
  have h1 := h x hx
  have h2 := h y hy
  obtain ⟨u, rfl⟩ := List.length_eq_one_iff.mp h1
  obtain ⟨v, rfl⟩ := List.length_eq_one_iff.mp h2
  simp [game] at he
  rw [he]

/-- The policy and its tree. -/
theorem policy : ∃ p t, createPolicyTree Toy.mk0 b!"a and (b or c)" = .ok (some p) ∧ p.root = some t ∧
    (leaves t).map Leaf.label = [b!"a", b!"b", b!"c"] ∧ t.size < 101 ∧ draws t ≤ 5 ∧ sat [b!"a"] t = false ∧
    sat [b!"b", b!"c"] t = false ∧ sat [b!"a", b!"c"] t = true := by
  obtain ⟨p', t, d', h1, -, h3, -⟩ := parsed (Toy.text3 Toy.mk0)
  have h4 := policy_of_eval (Toy.text3 Toy.mk0).canon (Toy.text3 Toy.mk0).valid (Toy.text3 Toy.mk0).toks h3
  rw [h1] at h4
  simp only [Res.ok.injEq, Option.some.injEq] at h4
  have h5 : (Toy.e3.eval Toy.mk0 { input := b!"a and (b or c)" } >>= fun r => Res.ok (decide (
      (leaves r.1).map Leaf.label = [b!"a", b!"b", b!"c"] ∧ r.1.size < 101 ∧ draws r.1 ≤ 5 ∧ sat [b!"a"] r.1 = false ∧
        sat [b!"b", b!"c"] r.1 = false ∧ sat [b!"a", b!"c"] r.1 = true))) = .ok true := by
    decide +kernel
  rw [h3] at h5
  simp only [Res.ok_bind, Res.ok.injEq, decide_eq_true_eq] at h5
  exact ⟨p', t, h1, by rw [h4]; rfl, h5⟩

/-- The random values suffice. -/
theorem covers (S : StdSort) {p : Policy} {t : TNode} (hp : createPolicyTree Toy.mk0 b!"a and (b or c)" = .ok (some p))
    (hroot : p.root = some t) (hl : (leaves t).map Leaf.label = [b!"a", b!"b", b!"c"]) (hd : draws t ≤ 5) :
    Covers (game S) 101 5 3 ([b!"a", b!"b", b!"c"].map fun x => (game S).env.md ((game S).k ++ x)).toFinset p := by
  obtain ⟨-, t', hroot', hao, -, -, hidx⟩ := accepted_shape hp
  rw [hroot] at hroot'
  simp only [Option.some.injEq] at hroot'
  subst hroot'
  refine ⟨?_, by
    have := congrArg List.length hl
    simp only [policyNames, hroot, hl]
    decide, ?_⟩
  · intro s tape o k h
    rw [shareSecret_ok {} p t s tape hroot hao.pos fun l hl _ => hidx l hl] at h
    simp only [Res.ok.injEq, Prod.mk.injEq] at h
    omega
  · intro x hx
    simp only [policyNames, hroot, hl] at hx
    rw [List.mem_toFinset]
    exact List.mem_map.mpr ⟨x, hx, rfl⟩

end CollEx

/-- The hypotheses of `C113_cp_collusion` are met: the holders of a key for `a` and of a key for `b` and `c` against
the policy `a and (b or c)`, which neither key alone satisfies and both together would. -/
example (S : StdSort) (A : Attack 101) (b : ZMod 101) (hb : b ≠ 0) : ∃ p,
    createPolicyTree Toy.mk0 b!"a and (b or c)" = .ok (some p) ∧ Satisfies [b!"a", b!"c"] p ∧
    let g := CollEx.game S
    let als : List AttrList := [{ attrs := [b!"a"] }, { attrs := [b!"b", b!"c"] }]
    let ds := ([b!"a", b!"b", b!"c"].map fun x => g.env.md (g.k ++ x)).toFinset
    Nat.card { x : CoinIx 1 5 3 2 ds → ZMod 101 //
      ∃ v, CpGame g p als (Coins.of x) v ∧ A.run g.env.e v = b • g.secret (Coins.of x) } * 101 ≤
      4 * 101 ^ Fintype.card (CoinIx 1 5 3 2 ds) := by
  obtain ⟨p, t, hp, hroot, hl, hs, hd, u1, u2, u3⟩ := CollEx.policy
  refine ⟨p, hp, ⟨t, hroot, u3⟩, ?_⟩
  refine (C113_cp_collusion (CollEx.game S) (CollEx.bilinear S) (CollEx.nonzero S) rfl rfl _ p hp ?_ (by decide) _ ?_ ?_
    (by decide) (by simp) (CollEx.covers S hp hroot hl hd) A b hb).2
  · intro t' h'
    rw [hroot] at h'
    simp only [Option.some.injEq] at h'
    subst h'
    exact hs
  · rintro al hal ⟨t', h', h''⟩
    rw [hroot] at h'
    simp only [Option.some.injEq] at h'
    subst h'
    simp only [List.mem_cons, List.not_mem_nil, or_false] at hal
    rcases hal with rfl | rfl
    · rw [u1] at h''; simp at h''
    · rw [u2] at h''; simp at h''
  · simp only [policyNames, hroot, hl]
    exact CollEx.noClash S (by decide)

/-- The hypotheses of `C113_kp_collusion` are met: keys for the policy `a and (b or c)`, twice, against a ciphertext for
`b` and `c`. -/
example (S : StdSort) (A : Attack 101) (b : ZMod 101) (hb : b ≠ 0) : ∃ p,
    createPolicyTree Toy.mk0 b!"a and (b or c)" = .ok (some p) ∧
    let g := CollEx.game S
    let ds := ([b!"a", b!"b", b!"c"].map fun x => g.env.md (g.k ++ x)).toFinset
    Nat.card { x : CoinIx 2 5 3 0 ds → ZMod 101 //
      ∃ v, KpGame g { attrs := [b!"b", b!"c"] } [p, p] (Coins.of x) v ∧ A.run g.env.e v = b • g.secret (Coins.of x) } * 101 ≤
      3 * 101 ^ Fintype.card (CoinIx 2 5 3 0 ds) := by
  obtain ⟨p, t, hp, hroot, hl, hs, hd, u1, u2, u3⟩ := CollEx.policy
  refine ⟨p, hp, ?_⟩
  have hall : ∀ p' ∈ [p, p], p' = p := by simp
  refine (C113_kp_collusion (CollEx.game S) (CollEx.bilinear S) (CollEx.nonzero S) rfl rfl { attrs := [b!"b", b!"c"] } [p, p]
    ?_ ?_ ?_ ?_ (by simp) ?_ A b hb).2
  · intro p' h; rw [hall p' h]; exact ⟨_, hp⟩
  · intro p' h; rw [hall p' h]
    intro t' h'
    rw [hroot] at h'
    simp only [Option.some.injEq] at h'
    subst h'
    exact hs
  · intro p' h; rw [hall p' h]
    rintro ⟨t', h', h''⟩
    rw [hroot] at h'
    simp only [Option.some.injEq] at h'
    subst h'
    rw [u2] at h''; simp at h''
  · simp only [List.flatMap_cons, List.flatMap_nil, policyNames, hroot, hl]
    exact CollEx.noClash S (by decide)
  · intro p' h; rw [hall p' h]
    exact CollEx.covers S hp hroot hl hd

/-- The hypotheses of `C113_cp_authorised` and `C113_kp_authorised` are met. -/
example (S : StdSort) : ∃ p, createPolicyTree (CollEx.game S).env.mktime b!"a and (b or c)" = .ok (some p) ∧
    Satisfies [b!"a", b!"c"] p ∧ (rowLabels (CollEx.game S).env.md p).Nodup ∧
    NoClash (CollEx.game S).env.md [b!"a", b!"c"] ∧ [p][0]? = some p := by
  obtain ⟨p, t, hp, hroot, hl, hs, hd, u1, u2, u3⟩ := CollEx.policy
  refine ⟨p, hp, ⟨t, hroot, u3⟩, rowLabels_nodup ?_ ?_, Toy.short_noClash (by decide), rfl⟩
  · rw [Toy.names3 hp]; decide
  · rw [Toy.names3 hp]; exact Toy.short_noClash (by decide)

end Abe.Scheme
