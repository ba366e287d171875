import Verif.Proof.Collusion
/-!
# What attackers see

The components of parameters, keys and ciphertexts as functions of the random values.
-/
set_option linter.unusedSimpArgs false
set_option linter.unusedSectionVars false
set_option autoImplicit false
namespace Abe.Scheme
variable {G1 G2 GT : Type} {q : Nat} [Fact q.Prime]
variable [AddCommGroup G1] [Module (ZMod q) G1] [AddCommGroup G2] [Module (ZMod q) G2] [AddCommGroup GT]
  [Module (ZMod q) GT]

/-- A component as a function of the coins. -/
abbrev ObjFn (q : Nat) (G1 G2 GT : Type) := Coins q → Obj G1 G2 GT

/-- The components for given coins. -/
def evalC (m : SMap (ObjFn q G1 G2 GT)) (c : Coins q) : Container G1 G2 GT := m.map fun p => (p.1, p.2 c)

theorem find_evalC (m : SMap (ObjFn q G1 G2 GT)) (c : Coins q) (n : Bytes) :
    SMap.find n (evalC m c) = (SMap.find n m).map fun f => f c := SMap.find_mapVal (fun f : ObjFn q G1 G2 GT => f c) n m

theorem insert_evalC (k : Bytes) (f : ObjFn q G1 G2 GT) (m : SMap (ObjFn q G1 G2 GT)) (c : Coins q) :
    SMap.insert k (f c) (evalC m c) = evalC (SMap.insert k f m) c := SMap.insert_mapVal (fun f => f c) k f m

theorem addRows_evalC (l : List (Bytes × ObjFn q G1 G2 GT)) (m : SMap (ObjFn q G1 G2 GT)) (c : Coins q) :
    SMap.addRows (evalC m c) (l.map fun p => (p.1, p.2 c)) = evalC (SMap.addRows m l) c :=
  SMap.addRows_mapVal (fun f : ObjFn q G1 G2 GT => f c) l m

/-- The exponents of a component. -/
structure Has (g : Game G1 G2 GT) (f : ObjFn q G1 G2 GT) (U V W : Fn q) : Prop where
  u : ∀ c, asG1 (some (f c)) = U c • g.g1
  v : ∀ c, asG2 (some (f c)) = V c • g.g2
  w : ∀ c, asGT (some (f c)) = W c • g.env.e g.g1 g.g2

theorem Has.bytes (g : Game G1 G2 GT) (b : Bytes) : Has (q := q) g (fun _ => .bytes b) 0 0 0 :=
  ⟨by simp [asG1], by simp [asG2], by simp [asGT]⟩
theorem Has.attrs (g : Game G1 G2 GT) (b : AttrList) : Has (q := q) g (fun _ => .attrs b) 0 0 0 :=
  ⟨by simp [asG1], by simp [asG2], by simp [asGT]⟩
theorem Has.g1 (g : Game G1 G2 GT) {f : Coins q → G1} {U : Fn q} (h : ∀ c, f c = U c • g.g1) :
    Has g (fun c => .g1 (f c)) U 0 0 := ⟨by simp [asG1, h], by simp [asG2], by simp [asGT]⟩
theorem Has.g2 (g : Game G1 G2 GT) {f : Coins q → G2} {U : Fn q} (h : ∀ c, f c = U c • g.g2) :
    Has g (fun c => .g2 (f c)) 0 U 0 := ⟨by simp [asG1], by simp [asG2, h], by simp [asGT]⟩
theorem Has.gt (g : Game G1 G2 GT) {f : Coins q → GT} {U : Fn q} (h : ∀ c, f c = U c • g.env.e g.g1 g.g2) :
    Has g (fun c => .gt (f c)) 0 0 U := ⟨by simp [asG1], by simp [asG2], by simp [asGT, h]⟩

theorem hashToG1_envOf (g : Game G1 G2 GT) (c : Coins q) (x : Bytes) :
    hashToG1 (g.envOf c) g.k x = c.h (g.env.md (g.k ++ x)) • g.g1 := rfl

/-- A map all whose components have exponents of the given kinds. -/
def AllHave (g : Game G1 G2 GT) (PU PV : Fn q → Prop) (m : List (Bytes × ObjFn q G1 G2 GT)) : Prop :=
  ∀ x ∈ m, ∃ U V W, Has g x.2 U V W ∧ PU U ∧ PV V ∧ (W = 0 ∨ W = fun c => c.alpha)

theorem AllHave.insert {g : Game G1 G2 GT} {PU PV : Fn q → Prop} {m : SMap (ObjFn q G1 G2 GT)} {k : Bytes}
    {f : ObjFn q G1 G2 GT} (hm : AllHave g PU PV m)
    (hf : ∃ U V W, Has g f U V W ∧ PU U ∧ PV V ∧ (W = 0 ∨ W = fun c => c.alpha)) :
    AllHave g PU PV (SMap.insert k f m) := by
  intro x hx
  rcases SMap.mem_insert' hx with rfl | h
  · exact hf
  · exact hm x h

theorem AllHave.addRows {g : Game G1 G2 GT} {PU PV : Fn q → Prop} {m : SMap (ObjFn q G1 G2 GT)}
    {l : List (Bytes × ObjFn q G1 G2 GT)} (hm : AllHave g PU PV m) (hl : AllHave g PU PV l) :
    AllHave g PU PV (SMap.addRows m l) := by
  intro x hx
  rcases SMap.mem_addRows _ _ _ hx with h | h
  · exact hl x h
  · exact hm x h

theorem AllHave.nil {g : Game G1 G2 GT} {PU PV : Fn q → Prop} : AllHave g PU PV [] := by intro x hx; simp at hx

/-- The view as a function of the coins. -/
structure ViewFn (q : Nat) (G1 G2 GT : Type) where
  mpk : SMap (ObjFn q G1 G2 GT)
  ct : SMap (ObjFn q G1 G2 GT)
  keys : Nat → SMap (ObjFn q G1 G2 GT)

/-- The view for given coins. -/
def ViewFn.eval (vf : ViewFn q G1 G2 GT) (g : Game G1 G2 GT) (c : Coins q) : Views G1 G2 GT where
  mpk := evalC vf.mpk c
  ct := evalC vf.ct c
  keys i := evalC (vf.keys i) c
  hash := hashToG1 (g.envOf c) g.k

/-- The component at a place. -/
def ViewFn.at (v : ViewFn q G1 G2 GT) : Loc → Option (ObjFn q G1 G2 GT)
  | .mpk n => SMap.find n v.mpk
  | .ct n => SMap.find n v.ct
  | .key i n => SMap.find n (v.keys i)

theorem ViewFn.at_eval (vf : ViewFn q G1 G2 GT) (g : Game G1 G2 GT) (c : Coins q) (l : Loc) :
    (vf.eval g c).at l = (vf.at l).map fun f => f c := by
  cases l <;> exact find_evalC _ _ _

/-- Exponents for a whole view. -/
theorem exists_expo (g : Game G1 G2 GT) (PU PV : Fn q → Prop) (vf : ViewFn q G1 G2 GT)
    (h0 : PU 0) (h0' : PV 0) (hh : ∀ d, PU fun c => c.h d)
    (h1 : AllHave g PU PV vf.mpk) (h2 : AllHave g PU PV vf.ct) (h3 : ∀ i, AllHave g PU PV (vf.keys i)) :
    ∃ x : Expo q, (∀ c, x.Of g c (vf.eval g c)) ∧ (∀ s, PU (x.u s)) ∧ (∀ l, PV (x.v l)) ∧
      ∀ l, x.w l = 0 ∨ x.w l = fun c => c.alpha := by
  have hl : ∀ l : Loc, ∃ U V W : Fn q, (∀ c, asG1 ((vf.eval g c).at l) = U c • g.g1 ∧
      asG2 ((vf.eval g c).at l) = V c • g.g2 ∧ asGT ((vf.eval g c).at l) = W c • g.env.e g.g1 g.g2) ∧
      PU U ∧ PV V ∧ (W = 0 ∨ W = fun c => c.alpha) := by
    intro l
    cases hf : vf.at l with
    | none =>
      refine ⟨0, 0, 0, ?_, h0, h0', .inl rfl⟩
      intro c
      rw [ViewFn.at_eval, hf]
      simp [asG1, asG2, asGT]
    | some f =>
      have hm : ∃ U V W, Has g f U V W ∧ PU U ∧ PV V ∧ (W = 0 ∨ W = fun c => c.alpha) := by
        cases l with
        | mpk n => exact h1 _ (SMap.mem_of_find' hf)
        | ct n => exact h2 _ (SMap.mem_of_find' hf)
        | key i n => exact h3 i _ (SMap.mem_of_find' hf)
      obtain ⟨U, V, W, hU, p1, p2, p3⟩ := hm
      refine ⟨U, V, W, ?_, p1, p2, p3⟩
      intro c
      rw [ViewFn.at_eval, hf]
      exact ⟨hU.u c, hU.v c, hU.w c⟩
  choose U V W hw hU hV hW using hl
  refine ⟨⟨fun s => match s with
      | .comp l => U l
      | .hash n => fun c => c.h (g.env.md (g.k ++ n)), V, W⟩, ?_, ?_, hV, hW⟩
  · intro c
    refine ⟨?_, fun l => (hw l c).2.1, fun l => (hw l c).2.2⟩
    intro s
    cases s with
    | comp l => exact (hw l c).1
    | hash n => rfl
  · intro s
    cases s with
    | comp l => exact hU l
    | hash n => exact hh _

/-! ### Ciphertext-policy -/

/-- The public parameters. -/
def cpMpkFn (g : Game G1 G2 GT) : SMap (ObjFn q G1 G2 GT) :=
  SMap.insert b!"k" (fun _ => .bytes g.k) (SMap.insert b!"A" (fun c => .gt (c.alpha • g.env.e g.g1 g.g2))
    (SMap.insert b!"g1a" (fun c => .g1 (c.a • g.g1)) (SMap.insert b!"g2" (fun _ => .g2 g.g2)
      (SMap.insert b!"g1" (fun _ => .g1 g.g1) []))))

/-- The `i`-th key. -/
def cpKeyFn (g : Game G1 G2 GT) (al : AttrList) (i : Nat) : SMap (ObjFn q G1 G2 GT) :=
  SMap.addRows
      (SMap.insert b!"L" (fun c => .g2 (c.t i • g.g2)) (SMap.insert b!"K" (fun c => .g2 (c.alpha • g.g2 + c.t i • (c.a • g.g2)))
        (SMap.insert b!"input" (fun _ => .attrs al) [])))
      (al.attrs.map fun a => (elementLabel b!"KX" (hashKey g.env.md a), fun c => .g1 (c.t i • hashToG1 (g.envOf c) g.k a)))

/-- The components of the rows. -/
def cpRowsFn (g : Game G1 G2 GT) (i : Nat) (rows : List (Bytes × (Bytes × ShareFn (ZMod q)))) :
    List (Bytes × ObjFn q G1 G2 GT) :=
  (rows.zipIdx i).flatMap fun x => [
      (elementLabel b!"D" (hashKey g.env.md x.1.1), fun c => .g2 (c.r 0 x.2 • g.g2)),
      (elementLabel b!"C" (hashKey g.env.md x.1.1), fun c => .g1 ((x.1.2.2 c.s (c.tape 0)) • (c.a • g.g1) +
        (-(c.r 0 x.2)) • hashToG1 (g.envOf c) g.k x.1.2.1))]

/-- The ciphertext. -/
def cpCtFn (g : Game G1 G2 GT) (s : Bytes) (rows : SMap (Bytes × ShareFn (ZMod q))) : SMap (ObjFn q G1 G2 GT) :=
  SMap.addRows (SMap.insert b!"Cprime" (fun c => .g1 (c.s • g.g1)) (SMap.insert b!"policy" (fun _ => .bytes s) []))
    (cpRowsFn g 0 rows)

theorem cpRows_fn (g : Game G1 G2 GT) (c : Coins q) : ∀ (rows : List (Bytes × (Bytes × ShareFn (ZMod q)))) (i : Nat),
    cpRows (g.envOf c) g.k g.g2 (c.a • g.g1) (c.r 0) i (rows.map fun x => (x.1, (x.2.1, x.2.2 c.s (c.tape 0)))) =
    (cpRowsFn g i rows).map fun p => (p.1, p.2 c)
  | [], _ => rfl
  | row :: rows, i => by
    simp only [List.map_cons, cpRows, cpRowsFn, List.zipIdx_cons, List.flatMap_cons, List.cons_append, List.nil_append,
      cpRows_fn g c rows (i + 1)]
    rfl

/-- The whole view. -/
def cpViewFn (g : Game G1 G2 GT) (s : Bytes) (rows : SMap (Bytes × ShareFn (ZMod q))) (als : List AttrList) :
    ViewFn q G1 G2 GT where
  mpk := cpMpkFn g
  ct := cpCtFn g s rows
  keys i := match als[i]? with
    | some al => cpKeyFn g al i
    | none => []

/-- The game of the code is played and its view is the function's value. -/
theorem cpGame_view (g : Game G1 G2 GT) (hnd : g.env.ndebug = false) (hready : g.ctx.ready = true) (s : Bytes) (p : Policy)
    (t0 : TNode) (hcomp : p.compact = s) (hroot : p.root = some t0) (hpos : PosGates t0)
    (hidx : ∀ l ∈ leaves t0, l.idx.isSome) (als : List AttrList) (c : Coins q) :
    ∀ v, CpGame g p als c v ↔ v = (cpViewFn g s (shareRows p t0) als).eval g c := by
  obtain ⟨P, M, hPM, f1, f2, f3, f4, f5, f6, f7⟩ := cpParams_ok (g.envOf c) (g.params c)
  have hP : P = evalC (cpMpkFn g) c := by
    have h : cpParams (g.envOf c) (g.params c) = .ok (_, _) := rfl
    rw [h] at hPM
    simp only [Res.ok.injEq, Prod.mk.injEq] at hPM
    rw [← hPM.1]
    rfl
  have hkey : ∀ (mpk msk : Key G1 G2 GT), mpk.comps = P → msk.comps = M → ∀ (al : AttrList) (i : Nat),
      cpKeyBody (g.envOf c) g.ctx mpk msk al (c.t i) = .ok (evalC (cpKeyFn g al i) c) := by
    intro mpk msk h1 h2 al i
    subst h1; subst h2
    have e : cpKeyBody (g.envOf c) g.ctx mpk msk al (c.t i) = .ok (cpDk (g.envOf c) (g.params c) al (c.t i)) := by
      simp only [cpKeyBody, getBytes_of f5, getZP_of f6, getG2_of f2, getG2_of f7, usePairing_ok hready, Res.ok_bind,
        deref_some, setComponent_attrs, setComponent_g2, cpKeyLoop_eq, ZMod.natCast_zmod_val, cpDk]
    rw [e]
    unfold cpDk cpKeyFn
    rw [← addRows_evalC, List.map_map]
    rfl
  obtain ⟨sh, n, hsh, hres⟩ := shareSecret_rows p t0 hroot hpos hidx c.s (c.tape 0)
  have hlen : symKeyBytes = 16 ∨ symKeyBytes = 32 := .inr rfl
  obtain ⟨key, hk⟩ : ∃ key, symKeyOf g.env (g.secret c) symKeyBytes = .ok key := ⟨_, symKeyOf_ok g.env _ hlen⟩
  have hk' : symKeyOf (g.envOf c) (c.s • c.alpha • g.env.e g.g1 g.g2) symKeyBytes = .ok key := hk
  have henc : ∀ (mpk : Key G1 G2 GT), mpk.comps = P →
      cpEncBody (g.envOf c) g.ctx mpk p symKeyBytes (c.draws 0 c.s g.uid) {} =
      .ok (key, ⟨libraryVersion, g.ctx.alg, BS.fillBuffer 0 uidLen, evalC (cpCtFn g s (shareRows p t0)) c⟩) := by
    intro mpk h1
    subst h1
    have hnd' : (g.envOf c).ndebug = false := hnd
    have h2 := cpRows_fn g c (shareRows p t0) 0
    simp only [cpEncBody, getBytes_of f5, getGT_of f4, getG1_of f1, usePairing_ok hready, Res.ok_bind,
      deref_some, setComponent_bytes, setComponent_g1, hnd', Coins.draws, hsh,
      cpEncLoop_eq (g.envOf c) mpk _ _ _ (c.r 0) f2 f3, hcomp, hres]
    have e : (c.s • (g.params c).alpha • (g.envOf c).e (g.params c).g1 (g.params c).g2) =
      c.s • c.alpha • g.env.e g.g1 g.g2 := rfl
    rw [e, hk']
    show Res.ok (key, _) = Res.ok (key, _)
    unfold cpCtFn
    rw [← addRows_evalC, ← h2]
    rfl
  intro v
  constructor
  · rintro ⟨mpk, msk, key', ct, h1, h2, h3, h4, h5, h6, h7, h8⟩
    rw [hPM] at h1
    simp only [Res.ok.injEq, Prod.mk.injEq] at h1
    rw [henc mpk h1.1.symm] at h5
    simp only [Res.ok.injEq, Prod.mk.injEq] at h5
    obtain ⟨vm, vc, vk, vh⟩ := v
    simp only at h2 h3 h4 h6 h8
    have ek : vk = ((cpViewFn g s (shareRows p t0) als).eval g c).keys := by
      funext i
      show vk i = evalC ((cpViewFn g s (shareRows p t0) als).keys i) c
      cases hi : als[i]? with
      | none =>
        simp only [cpViewFn, hi]
        exact h4 i (by simpa using hi)
      | some al =>
        simp only [cpViewFn, hi]
        have := h3 i al hi
        rw [hkey mpk msk h1.1.symm h1.2.symm] at this
        simpa using this.symm
    rw [ek, h2, h6, h8, ← h5.2, ← h1.1, hP]
    rfl
  · rintro rfl
    refine ⟨newKey 0 g.mpkID g.uid P, newKey 0 g.mskID g.uid M, key, _, hPM, hP.symm, ?_, ?_, henc _ rfl, rfl, hk, rfl⟩
    · intro i al hi
      rw [hkey _ _ rfl rfl]
      show _ = Res.ok (evalC ((cpViewFn g s (shareRows p t0) als).keys i) c)
      simp only [cpViewFn, hi]
    · intro i hi
      show evalC ((cpViewFn g s (shareRows p t0) als).keys i) c = []
      have : als[i]? = none := by simpa using hi
      simp only [cpViewFn, this]
      rfl

/-- The rows and lists as the algebra sees them. -/
def digestRows (g : Game G1 G2 GT) (rows : SMap (Bytes × ShareFn (ZMod q))) : List (Row q) :=
  rows.map fun x => (g.env.md (g.k ++ x.2.1), x.2.2)
/-- The digests of the names of each list. -/
def digestLists (g : Game G1 G2 GT) (als : List AttrList) : List (List Bytes) :=
  als.map fun al => al.attrs.map fun a => g.env.md (g.k ++ a)

theorem cpView_expo (g : Game G1 G2 GT) (s : Bytes) (rows : SMap (Bytes × ShareFn (ZMod q))) (als : List AttrList) :
    ∃ x : Expo q, (∀ c, x.Of g c ((cpViewFn g s rows als).eval g c)) ∧
      (∀ s, CpU (digestRows g rows) (digestLists g als) (x.u s)) ∧
      (∀ l, CpV (digestRows g rows) (digestLists g als) (x.v l)) ∧ ∀ l, x.w l = 0 ∨ x.w l = fun c => c.alpha := by
  apply exists_expo g _ _ _ .zero .zero .hash
  · unfold cpViewFn cpMpkFn
    refine AllHave.insert (AllHave.insert (AllHave.insert (AllHave.insert (AllHave.insert .nil ?_) ?_) ?_) ?_) ?_
    · exact ⟨_, _, _, .g1 g (U := fun _ => 1) (by simp), .one, .zero, .inl rfl⟩
    · exact ⟨_, _, _, .g2 g (U := fun _ => 1) (by simp), .zero, .one, .inl rfl⟩
    · exact ⟨_, _, _, .g1 g (fun _ => rfl), .a, .zero, .inl rfl⟩
    · exact ⟨_, _, _, .gt g (fun _ => rfl), .zero, .zero, .inr rfl⟩
    · exact ⟨_, _, _, .bytes g _, .zero, .zero, .inl rfl⟩
  · unfold cpViewFn cpCtFn
    refine AllHave.addRows (AllHave.insert (AllHave.insert .nil ?_) ?_) ?_
    · exact ⟨_, _, _, .bytes g _, .zero, .zero, .inl rfl⟩
    · exact ⟨_, _, _, .g1 g (fun _ => rfl), .s, .zero, .inl rfl⟩
    · intro x hx
      obtain ⟨⟨row, i⟩, hr, hx⟩ := List.mem_flatMap.mp hx
      rw [List.mem_zipIdx_iff_getElem?] at hr
      have hr' : (digestRows g rows)[i]? = some (g.env.md (g.k ++ row.2.1), row.2.2) := by
        simp only [digestRows, List.getElem?_map]
        simp only at hr
        rw [hr]; rfl
      simp only [List.mem_cons, List.not_mem_nil, or_false] at hx
      rcases hx with rfl | rfl
      · exact ⟨_, _, _, .g2 g (fun _ => rfl), .zero, .D i (List.getElem?_eq_some_iff.mp hr').1, .inl rfl⟩
      · refine ⟨_, _, _, .g1 g ?_, .c i _ hr', .zero, .inl rfl⟩
        intro c
        rw [hashToG1_envOf]
        module
  · intro i
    unfold cpViewFn
    simp only
    cases hi : als[i]? with
    | none => exact .nil
    | some al =>
      have hi' : (digestLists g als)[i]? = some (al.attrs.map fun a => g.env.md (g.k ++ a)) := by
        simp [digestLists, hi]
      have hl : i < (digestLists g als).length := (List.getElem?_eq_some_iff.mp hi').1
      refine AllHave.addRows (AllHave.insert (AllHave.insert (AllHave.insert .nil ?_) ?_) ?_) ?_
      · exact ⟨_, _, _, .attrs g _, .zero, .zero, .inl rfl⟩
      · refine ⟨_, _, _, .g2 g ?_, .zero, .K i hl, .inl rfl⟩
        intro c
        module
      · exact ⟨_, _, _, .g2 g (fun _ => rfl), .zero, .L i hl, .inl rfl⟩
      · intro x hx
        obtain ⟨a, ha, rfl⟩ := List.mem_map.mp hx
        refine ⟨_, _, _, .g1 g ?_, .kx i _ (g.env.md (g.k ++ a)) hi' (List.mem_map.mpr ⟨a, ha, rfl⟩), .zero, .inl rfl⟩
        intro c
        rw [hashToG1_envOf]
        module

/-! ### Key-policy -/

/-- The public parameters. -/
def kpMpkFn (g : Game G1 G2 GT) : SMap (ObjFn q G1 G2 GT) :=
  SMap.insert b!"k" (fun _ => .bytes g.k) (SMap.insert b!"Y" (fun c => .gt (c.alpha • g.env.e g.g1 g.g2))
    (SMap.insert b!"g2" (fun _ => .g2 g.g2) (SMap.insert b!"g1" (fun _ => .g1 g.g1) [])))

/-- The components of the rows of the `k`-th key. -/
def kpRowsFn (g : Game G1 G2 GT) (k i : Nat) (rows : List (Bytes × (Bytes × ShareFn (ZMod q)))) :
    List (Bytes × ObjFn q G1 G2 GT) :=
  (rows.zipIdx i).flatMap fun x => [
      (elementLabel b!"D" (hashKey g.env.md x.1.1), fun c => .g1 ((x.1.2.2 c.alpha (c.tape k)) • g.g1 +
        (c.r k x.2) • hashToG1 (g.envOf c) g.k x.1.2.1)),
      (elementLabel b!"d" (hashKey g.env.md x.1.1), fun c => .g2 (c.r k x.2 • g.g2))]

theorem kpRows_fn (g : Game G1 G2 GT) (c : Coins q) (k : Nat) :
    ∀ (rows : List (Bytes × (Bytes × ShareFn (ZMod q)))) (i : Nat),
    kpRows (g.envOf c) g.k g.g1 g.g2 (c.r k) i (rows.map fun x => (x.1, (x.2.1, x.2.2 c.alpha (c.tape k)))) =
    (kpRowsFn g k i rows).map fun p => (p.1, p.2 c)
  | [], _ => rfl
  | row :: rows, i => by
    simp only [List.map_cons, kpRows, kpRowsFn, List.zipIdx_cons, List.flatMap_cons, List.cons_append, List.nil_append,
      kpRows_fn g c k rows (i + 1)]
    rfl

/-- The `k`-th key. -/
def kpKeyFn (g : Game G1 G2 GT) (s : Bytes) (rows : SMap (Bytes × ShareFn (ZMod q))) (k : Nat) :
    SMap (ObjFn q G1 G2 GT) :=
  SMap.addRows (SMap.insert b!"input" (fun _ => .bytes s) []) (kpRowsFn g k 0 rows)

/-- The ciphertext. -/
def kpCtFn (g : Game G1 G2 GT) (al : AttrList) : SMap (ObjFn q G1 G2 GT) :=
  SMap.insert b!"attributes" (fun _ => .attrs al) (SMap.addRows (SMap.insert b!"Cpr2" (fun c => .g2 (c.s • g.g2)) [])
    (al.attrs.map fun a => (elementLabel b!"C" (hashKey g.env.md a), fun c => .g1 (c.s • hashToG1 (g.envOf c) g.k a))))

/-- The whole view; the keys are given by text and rows of their policies. -/
def kpViewFn (g : Game G1 G2 GT) (al : AttrList) (ks : List (Bytes × SMap (Bytes × ShareFn (ZMod q)))) :
    ViewFn q G1 G2 GT where
  mpk := kpMpkFn g
  ct := kpCtFn g al
  keys i := match ks[i]? with
    | some k => kpKeyFn g k.1 k.2 i
    | none => []

/-- A policy that can be shared, with its text and rows. -/
structure RowsOf (p : Policy) (k : Bytes × SMap (Bytes × ShareFn (ZMod q))) (t : TNode) : Prop where
  text : p.compact = k.1
  root : p.root = some t
  pos : PosGates t
  idx : ∀ l ∈ leaves t, l.idx.isSome
  rows : k.2 = shareRows p t

theorem kpGame_view (g : Game G1 G2 GT) (hnd : g.env.ndebug = false) (hready : g.ctx.ready = true) (al : AttrList)
    (ps : List Policy) (ks : List (Bytes × SMap (Bytes × ShareFn (ZMod q)))) (hlen : ps.length = ks.length)
    (hks : ∀ (i : Nat) p k, ps[i]? = some p → ks[i]? = some k → ∃ t, RowsOf p k t) (c : Coins q) :
    ∀ v, KpGame g al ps c v ↔ v = (kpViewFn g al ks).eval g c := by
  obtain ⟨P, M, hPM, f1, f2, f3, f4, f5⟩ := kpParams_ok (g.envOf c) (g.params c)
  have hP : P = evalC (kpMpkFn g) c := by
    have h : kpParams (g.envOf c) (g.params c) = .ok (_, _) := rfl
    rw [h] at hPM
    simp only [Res.ok.injEq, Prod.mk.injEq] at hPM
    rw [← hPM.1]
    rfl
  have hkey : ∀ (mpk msk : Key G1 G2 GT), mpk.comps = P → msk.comps = M → ∀ (i : Nat) p k, ps[i]? = some p →
      ks[i]? = some k →
      kpKeyBody (g.envOf c) g.ctx mpk msk p (c.tape i) (c.r i) = .ok (evalC (kpKeyFn g k.1 k.2 i) c) := by
    intro mpk msk h1 h2 i p k hp hk
    subst h1; subst h2
    obtain ⟨t, ht⟩ := hks i p k hp hk
    obtain ⟨sh, n, hsh, hres⟩ := shareSecret_rows p t ht.root ht.pos ht.idx c.alpha (c.tape i)
    have hnd' : (g.envOf c).ndebug = false := hnd
    have h2 := kpRows_fn g c i k.2 0
    rw [ht.rows, ← hres] at h2
    have hal : (g.params c).alpha = c.alpha := rfl
    have e : kpKeyBody (g.envOf c) g.ctx mpk msk p (c.tape i) (c.r i) =
        .ok (kpDk (g.envOf c) (g.params c) k.1 (c.r i) sh.results) := by
      simp only [kpKeyBody, getBytes_of f4, getZP_of f5, Res.ok_bind,
        deref_some, setComponent_bytes, ZMod.natCast_zmod_val, hnd', hal, hsh, ht.text]
      split
      · rename_i h; rw [h]; rfl
      · simp only [usePairing_ok hready, Res.ok_bind, kpKeyLoop_eq (g.envOf c) mpk _ _ _ (c.r i) f1 f2]
        rfl
    rw [e]
    unfold kpDk kpKeyFn
    rw [← addRows_evalC, ht.rows, ← h2]
    rfl
  have hl32 : symKeyBytes = 16 ∨ symKeyBytes = 32 := .inr rfl
  obtain ⟨key, hk⟩ : ∃ key, symKeyOf g.env (g.secret c) symKeyBytes = .ok key := ⟨_, symKeyOf_ok g.env _ hl32⟩
  have hk' : symKeyOf (g.envOf c) (c.s • c.alpha • g.env.e g.g1 g.g2) symKeyBytes = .ok key := hk
  have henc : ∀ (mpk : Key G1 G2 GT), mpk.comps = P →
      kpEncBody (g.envOf c) g.ctx mpk al symKeyBytes (c.draws 0 c.s g.uid) {} =
      .ok (key, ⟨libraryVersion, g.ctx.alg, BS.fillBuffer 0 uidLen, evalC (kpCtFn g al) c⟩) := by
    intro mpk h1
    subst h1
    have e : (c.s • (g.params c).alpha • (g.envOf c).e (g.params c).g1 (g.params c).g2) =
      c.s • c.alpha • g.env.e g.g1 g.g2 := rfl
    simp only [kpEncBody, getBytes_of f4, getGT_of f3, getG2_of f2, usePairing_ok hready, Res.ok_bind,
      deref_some, setComponent_attrs, setComponent_g2, kpEncLoop_eq, Coins.draws]
    rw [e, hk']
    show Res.ok (key, _) = Res.ok (key, _)
    unfold kpCtFn
    rw [← insert_evalC, ← addRows_evalC, List.map_map]
    rfl
  intro v
  constructor
  · rintro ⟨mpk, msk, key', ct, h1, h2, h3, h4, h5, h6, h7, h8⟩
    rw [hPM] at h1
    simp only [Res.ok.injEq, Prod.mk.injEq] at h1
    rw [henc mpk h1.1.symm] at h5
    simp only [Res.ok.injEq, Prod.mk.injEq] at h5
    obtain ⟨vm, vc, vk, vh⟩ := v
    simp only at h2 h3 h4 h6 h8
    have ek : vk = ((kpViewFn g al ks).eval g c).keys := by
      funext i
      show vk i = evalC ((kpViewFn g al ks).keys i) c
      cases hi : ks[i]? with
      | none =>
        simp only [kpViewFn, hi]
        exact h4 i (by rw [hlen]; simpa using hi)
      | some k =>
        have hil : i < ps.length := by rw [hlen]; exact (List.getElem?_eq_some_iff.mp hi).1
        have hp : ps[i]? = some ps[i] := List.getElem?_eq_getElem hil
        simp only [kpViewFn, hi]
        have := h3 i _ hp
        rw [hkey mpk msk h1.1.symm h1.2.symm i _ k hp hi] at this
        simpa using this.symm
    rw [ek, h2, h6, h8, ← h5.2, ← h1.1, hP]
    rfl
  · rintro rfl
    refine ⟨newKey 0 g.mpkID g.uid P, newKey 0 g.mskID g.uid M, key, _, hPM, hP.symm, ?_, ?_, henc _ rfl, rfl, hk, rfl⟩
    · intro i p hi
      have hil : i < ks.length := by rw [← hlen]; exact (List.getElem?_eq_some_iff.mp hi).1
      have hk : ks[i]? = some ks[i] := List.getElem?_eq_getElem hil
      rw [hkey _ _ rfl rfl i p _ hi hk]
      show _ = Res.ok (evalC ((kpViewFn g al ks).keys i) c)
      simp only [kpViewFn, hk]
    · intro i hi
      show evalC ((kpViewFn g al ks).keys i) c = []
      have : ks[i]? = none := by simpa [← hlen] using hi
      simp only [kpViewFn, this]
      rfl

theorem kpView_expo (g : Game G1 G2 GT) (al : AttrList) (ks : List (Bytes × SMap (Bytes × ShareFn (ZMod q)))) :
    ∃ x : Expo q, (∀ c, x.Of g c ((kpViewFn g al ks).eval g c)) ∧
      (∀ s, KpU (ks.map fun k => digestRows g k.2) (al.attrs.map fun a => g.env.md (g.k ++ a)) (x.u s)) ∧
      (∀ l, KpV (ks.map fun k => digestRows g k.2) (x.v l)) ∧ ∀ l, x.w l = 0 ∨ x.w l = fun c => c.alpha := by
  apply exists_expo g _ _ _ .zero .zero .hash
  · unfold kpViewFn kpMpkFn
    refine AllHave.insert (AllHave.insert (AllHave.insert (AllHave.insert .nil ?_) ?_) ?_) ?_
    · exact ⟨_, _, _, .g1 g (U := fun _ => 1) (by simp), .one, .zero, .inl rfl⟩
    · exact ⟨_, _, _, .g2 g (U := fun _ => 1) (by simp), .zero, .one, .inl rfl⟩
    · exact ⟨_, _, _, .gt g (fun _ => rfl), .zero, .zero, .inr rfl⟩
    · exact ⟨_, _, _, .bytes g _, .zero, .zero, .inl rfl⟩
  · unfold kpViewFn kpCtFn
    refine AllHave.insert (AllHave.addRows (AllHave.insert .nil ?_) ?_) ?_
    · exact ⟨_, _, _, .g2 g (fun _ => rfl), .zero, .s, .inl rfl⟩
    · intro x hx
      obtain ⟨a, ha, rfl⟩ := List.mem_map.mp hx
      refine ⟨_, _, _, .g1 g ?_, .cx (g.env.md (g.k ++ a)) (List.mem_map.mpr ⟨a, ha, rfl⟩), .zero, .inl rfl⟩
      intro c
      rw [hashToG1_envOf]
      module
    · exact ⟨_, _, _, .attrs g _, .zero, .zero, .inl rfl⟩
  · intro i
    unfold kpViewFn
    simp only
    cases hi : ks[i]? with
    | none => exact .nil
    | some k =>
      have hi' : (ks.map fun k => digestRows g k.2)[i]? = some (digestRows g k.2) := by simp [hi]
      refine AllHave.addRows (AllHave.insert .nil ?_) ?_
      · exact ⟨_, _, _, .bytes g _, .zero, .zero, .inl rfl⟩
      · intro x hx
        obtain ⟨⟨row, j⟩, hr, hx⟩ := List.mem_flatMap.mp hx
        rw [List.mem_zipIdx_iff_getElem?] at hr
        have hr' : (digestRows g k.2)[j]? = some (g.env.md (g.k ++ row.2.1), row.2.2) := by
          simp only [digestRows, List.getElem?_map]
          simp only at hr
          rw [hr]; rfl
        simp only [List.mem_cons, List.not_mem_nil, or_false] at hx
        rcases hx with rfl | rfl
        · refine ⟨_, _, _, .g1 g ?_, .D i j _ _ hi' hr', .zero, .inl rfl⟩
          intro c
          rw [hashToG1_envOf]
          module
        · exact ⟨_, _, _, .g2 g (fun _ => rfl), .zero, .d i j, .inl rfl⟩

end Abe.Scheme
