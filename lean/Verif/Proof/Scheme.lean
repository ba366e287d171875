import Verif.Model.Scheme
import Verif.Props.LSSS
import Verif.Proof.ParsedFacts
import Mathlib.Algebra.BigOperators.Group.Finset.Basic
import Mathlib.Data.ZMod.Basic
import Mathlib.Tactic.Module
/-! # Facts about the schemes -/
set_option linter.unusedSimpArgs false
set_option linter.unusedSectionVars false
set_option autoImplicit false
namespace Abe

/-! ### Maps -/

theorem SMap.find_addRows_fun {α : Type} (l : List (Bytes × α)) : ∀ (m : SMap α) (k : Bytes) (v : α),
    (∃ p ∈ l, p.1 = k) → (∀ p ∈ l, p.1 = k → p.2 = v) → SMap.find k (SMap.addRows m l) = some v := by
  induction l with
  | nil => intro m k v h _; simp at h
  | cons p l ih =>
    intro m k v hex hv
    obtain ⟨k', v'⟩ := p
    simp only [SMap.addRows]
    by_cases hl : ∃ p ∈ l, p.1 = k
    · exact ih _ k v hl (fun p hp he => hv p (by simp [hp]) he)
    · have hk : k' = k := by
        obtain ⟨p, hp, he⟩ := hex
        rcases List.mem_cons.mp hp with h | h
        · rw [h] at he; exact he
        · exact absurd ⟨p, h, he⟩ hl
      subst hk
      rw [SMap.find_addRows_not_mem, SMap.find_insert, if_pos rfl]
      · exact congrArg some (hv (k', v') (by simp) rfl)
      · intro hm
        obtain ⟨p, hp, he⟩ := List.mem_map.mp hm
        exact hl ⟨p, hp, he⟩

/-! ### Shares and coefficients -/

section lsss
variable {F : Type} [Field F] [DecidableEq F]

/-- Pairing up two maps, by either of them. -/
theorem sum_swap (co sh : SMap (Bytes × F)) (hco : SMap.Sorted co) (hsh : SMap.Sorted sh)
    (hsub : ∀ row ∈ co, (SMap.find row.1 sh).isSome) :
    (sh.map fun p => coeffOf co p.1 * p.2.2).sum = (co.map fun p => p.2.2 * coeffOf sh p.1).sum := by
  have val : ∀ (m : SMap (Bytes × F)), SMap.Sorted m → ∀ p ∈ m, p.2.2 = coeffOf m p.1 := by
    intro m hm p hp
    obtain ⟨k, v⟩ := p
    have := SMap.find_of_mem hm hp
    simp [coeffOf, this]
  have e1 : (sh.map fun p => coeffOf co p.1 * p.2.2) = (sh.map Prod.fst).map fun k => coeffOf co k * coeffOf sh k := by
    rw [List.map_map]
    apply List.map_congr_left
    intro p hp
    simp only [Function.comp]
    rw [← val sh hsh p hp]
  have e2 : (co.map fun p => p.2.2 * coeffOf sh p.1) = (co.map Prod.fst).map fun k => coeffOf co k * coeffOf sh k := by
    rw [List.map_map]
    apply List.map_congr_left
    intro p hp
    simp only [Function.comp]
    rw [← val co hco p hp]
  rw [e1, e2, ← List.sum_toFinset _ (SMap.nodup_keys hsh), ← List.sum_toFinset _ (SMap.nodup_keys hco)]
  symm
  apply Finset.sum_subset
  · intro k hk
    simp only [List.mem_toFinset, List.mem_map] at hk ⊢
    obtain ⟨p, hp, rfl⟩ := hk
    obtain ⟨v, hv⟩ := Option.isSome_iff_exists.mp (hsub p hp)
    exact ⟨_, SMap.mem_of_find hv, rfl⟩
  · intro k _ hk
    have : SMap.find k co = none := by
      cases h : SMap.find k co with
      | none => rfl
      | some v =>
        exfalso; apply hk
        simp only [List.mem_toFinset, List.mem_map]
        exact ⟨_, SMap.mem_of_find h, rfl⟩
    simp [coeffOf, this]

/-- Everything the schemes need to know about sharing and recovery. -/
theorem share_recover (S : StdSort) (p : Policy) (t : TNode) (A : List Bytes) (s : F)
    (tape : Nat → F) (hroot : p.root = some t) (hao : AndOr t) (hbin : BinAnd t) (hfresh : Fresh t)
    (hidx : ∀ l ∈ leaves t, l.idx.isSome)
    (hlabels : ((leaves t).map (uniqueLabel (if p.hasDup then p.dupCount else []))).Nodup)
    (hsat : sat A t = true) :
    ∃ (sh co : LSSS F) (n : Nat) (p' : Policy),
      shareSecret false {} (some p) s tape = .ok (sh, n) ∧
      recoverCoefficients S false {} (some p) A = .ok (true, co, p') ∧
      SMap.Sorted sh.results ∧ co.results ≠ [] ∧
      (∀ row ∈ co.results, row.2.1 ∈ A ∧ SMap.find row.1 sh.results = some (row.2.1, coeffOf sh.results row.1)) ∧
      (co.results.map fun p => p.2.2 * coeffOf sh.results p.1).sum = s ∧
      (∀ row ∈ sh.results, ∃ l ∈ leaves t, row.1 = uniqueLabel (if p.hasDup then p.dupCount else []) l ∧
        row.2.1 = l.label) := by
  have hi : IdxOkT (effCount ({} : LSSS F) p) t := fun l hl _ => hidx l hl
  have e : effCount ({} : LSSS F) p = if p.hasDup then p.dupCount else [] := rfl
  obtain ⟨t', h2, h3⟩ := recover_sat S ({} : LSSS F) p t A hroot hao hfresh (.inl hbin) hi hsat
  have hm : t'.mark = true := by rw [h2.mark, hsat]
  have hr := recon tape A t' (effCount ({} : LSSS F) p) s (h2.same.andOr.mpr hao)
    (h2.same.binAnd.mpr hbin) h2.good hm (by rw [h2.same.leaves, e]; exact hlabels)
  rw [h2.same.emit] at hr
  have hs1 : SMap.Sorted (SMap.addRows [] ((emit tape t s 0).map (toRow (effCount ({} : LSSS F) p)))) :=
    SMap.sorted_addRows _ _ trivial
  have hs2 : SMap.Sorted (SMap.addRows [] ((recRows (recFull t' (1 : F) true)).map
      (toRow (effCount ({} : LSSS F) p)))) := SMap.sorted_addRows _ _ trivial
  have hn : (((emit tape t s 0).map (toRow (effCount ({} : LSSS F) p))).map Prod.fst).Nodup := by
    rw [fst_toRow, emit_fst]
    exact ((rleaves_perm t).map _).nodup_iff.mpr (by rw [e]; exact hlabels)
  have hfind : ∀ row ∈ SMap.addRows [] ((recRows (recFull t' (1 : F) true)).map
      (toRow (effCount ({} : LSSS F) p))), row.2.1 ∈ A ∧ ∃ σ, SMap.find row.1
      (SMap.addRows [] ((emit tape t s 0).map (toRow (effCount ({} : LSSS F) p)))) = some (row.2.1, σ) := by
    intro row hrow
    rcases SMap.mem_addRows _ _ _ hrow with hm' | hm'
    · obtain ⟨⟨lf, v⟩, hx, rfl⟩ := List.mem_map.mp hm'
      refine ⟨recFull_rows_held A t' h2.good hm 1 _ hx, ?_⟩
      have h5 : lf ∈ (recFull t' (1 : F) true).map Prod.fst :=
        List.mem_map.mpr ⟨_, mem_recRows.mp hx, rfl⟩
      rw [recFull_fst] at h5
      have h6 : lf ∈ rleaves t := by
        rw [(rleaves_perm t).mem_iff, ← h2.same.leaves, ← (rleaves_perm t').mem_iff]; exact h5
      rw [← emit_fst tape t s 0] at h6
      obtain ⟨⟨lf', σ⟩, h7, h8⟩ := List.mem_map.mp h6
      simp only at h8; subst h8
      exact ⟨σ, SMap.find_addRows_mem _ _ _ _ hn (List.mem_map.mpr ⟨_, h7, rfl⟩)⟩
    · simp at hm'
  refine ⟨_, _, _, _, shareSecret_ok {} p t s tape hroot hao.pos hi, h3, hs1, ?_, ?_, ?_, ?_⟩
  · -- one row at least
    obtain ⟨o', p', g1, _, g3⟩ := C02_recover_iff_satisfied (F := F) S {} p t A hroot hao hfresh (.inl hbin) hidx
    rw [h3] at g1
    simp only [Res.ok.injEq, Prod.mk.injEq] at g1
    have g3' := g3 hsat
    rw [← g1.2.1] at g3'
    exact g3'
  · intro row hrow
    obtain ⟨a, σ, b⟩ := hfind row hrow
    refine ⟨a, ?_⟩
    simp only [coeffOf, b, Option.map_some, Option.getD_some]
  · rw [← sum_swap _ _ hs2 hs1, ← testSecretRecovery_eq]
    · exact hr
    · intro row hrow
      obtain ⟨_, σ, b⟩ := hfind row hrow
      rw [b]; rfl
  · intro row hrow
    rcases SMap.mem_addRows _ _ _ hrow with hm' | hm'
    · obtain ⟨⟨lf, v⟩, hx, rfl⟩ := List.mem_map.mp hm'
      have : lf ∈ (emit tape t s 0).map Prod.fst := List.mem_map.mpr ⟨_, hx, rfl⟩
      rw [emit_fst] at this
      exact ⟨lf, (rleaves_perm t).mem_iff.mp this, rfl, rfl⟩
    · simp at hm'

end lsss

/-! ### Components -/

namespace Scheme
variable {G1 G2 GT : Type}

/-- What is assumed of the pairing. -/
structure Bilinear (q : Nat) [Fact q.Prime] [AddCommGroup G1] [Module (ZMod q) G1] [AddCommGroup G2]
    [Module (ZMod q) G2] [AddCommGroup GT] [Module (ZMod q) GT] (e : G1 → G2 → GT) : Prop where
  add_left : ∀ x y z, e (x + y) z = e x z + e y z
  add_right : ∀ x y z, e x (y + z) = e x y + e x z
  smul_left : ∀ (a : ZMod q) x y, e (a • x) y = a • e x y
  smul_right : ∀ (a : ZMod q) x y, e x (a • y) = a • e x y

theorem setComponent_g1 (c : Container G1 G2 GT) (n : Bytes) (x : G1) :
    Container.setComponent c n (.g1 x) = .ok (SMap.insert n (.g1 x) c) := rfl
theorem setComponent_g2 (c : Container G1 G2 GT) (n : Bytes) (x : G2) :
    Container.setComponent c n (.g2 x) = .ok (SMap.insert n (.g2 x) c) := rfl
theorem setComponent_gt (c : Container G1 G2 GT) (n : Bytes) (x : GT) :
    Container.setComponent c n (.gt x) = .ok (SMap.insert n (.gt x) c) := rfl
theorem setComponent_zp (c : Container G1 G2 GT) (n : Bytes) (x : Nat) :
    Container.setComponent c n (.zp x) = .ok (SMap.insert n (.zp x) c) := rfl
theorem setComponent_bytes (c : Container G1 G2 GT) (n : Bytes) (x : Bytes) :
    Container.setComponent c n (.bytes x) = .ok (SMap.insert n (.bytes x) c) := rfl
theorem setComponent_attrs (c : Container G1 G2 GT) (n : Bytes) (x : AttrList) :
    Container.setComponent c n (.attrs x) = .ok (SMap.insert n (.attrs x) c) := rfl

theorem getG1_of {c : Container G1 G2 GT} {n : Bytes} {x : G1} (h : SMap.find n c = some (.g1 x)) :
    getG1 c n = .ok (some x) := by simp [getG1, Container.getComponent, h]
theorem getG2_of {c : Container G1 G2 GT} {n : Bytes} {x : G2} (h : SMap.find n c = some (.g2 x)) :
    getG2 c n = .ok (some x) := by simp [getG2, Container.getComponent, h]
theorem getGT_of {c : Container G1 G2 GT} {n : Bytes} {x : GT} (h : SMap.find n c = some (.gt x)) :
    getGT c n = .ok (some x) := by simp [getGT, Container.getComponent, h]
theorem getZP_of {c : Container G1 G2 GT} {n : Bytes} {x : Nat} (h : SMap.find n c = some (.zp x)) :
    getZP c n = .ok (some x) := by simp [getZP, Container.getComponent, h]
theorem getBytes_of {c : Container G1 G2 GT} {n : Bytes} {x : Bytes} (h : SMap.find n c = some (.bytes x)) :
    getBytes c n = .ok (some x) := by simp [getBytes, Container.getComponent, h]

@[simp] theorem deref_some {α : Type} (a : α) : deref (some a) = .ok a := rfl
@[simp] theorem notNull_some {α : Type} (a : α) : notNull (some a) = .ok a := rfl

theorem elementLabel_inj {b x y : Bytes} (h : elementLabel b x = elementLabel b y) : x = y := by
  simpa [elementLabel] using h

theorem usePairing_ok {c : Ctx G1 G2 GT} (h : c.ready = true) : usePairing c = .ok () := by simp [usePairing, h]

theorem symKeyOf_ok (env : Env G1 G2 GT) (x : GT) {len : Nat} (hl : len = 16 ∨ len = 32) :
    symKeyOf env x len = .ok (env.kdf len (env.md (groupSerialize 0xB4 (env.wT x)))) := by
  rcases hl with rfl | rfl <;> rfl

variable {q : Nat} [Fact q.Prime]
variable [AddCommGroup G1] [Module (ZMod q) G1] [AddCommGroup G2] [Module (ZMod q) G2] [AddCommGroup GT]
  [Module (ZMod q) GT]

theorem Bilinear.sum_left {e : G1 → G2 → GT} (h : Bilinear q e) {α : Type} (f : α → G1) (y : G2) :
    ∀ l : List α, e ((l.map f).sum) y = (l.map fun a => e (f a) y).sum
  | [] => by
    have := h.smul_left 0 0 y
    simpa using this
  | a :: l => by simp [h.add_left, h.sum_left f y l]

/-! ### Loops -/

theorem cpKeyLoop_eq (env : Env G1 G2 GT) (k : Bytes) (t : ZMod q) : ∀ (as : List Bytes) (d : Container G1 G2 GT),
    cpKeyLoop env (some k) t as d =
      .ok (SMap.addRows d (as.map fun a => (elementLabel b!"KX" (hashKey env.md a), .g1 (t • hashToG1 env k a))))
  | [], d => rfl
  | a :: as, d => by
    simp only [cpKeyLoop, deref_some, Res.ok_bind, setComponent_g1]
    rw [cpKeyLoop_eq env k t as]
    rfl

theorem kpEncLoop_eq (env : Env G1 G2 GT) (k : Bytes) (t : ZMod q) : ∀ (as : List Bytes) (d : Container G1 G2 GT),
    kpEncLoop env (some k) t as d =
      .ok (SMap.addRows d (as.map fun a => (elementLabel b!"C" (hashKey env.md a), .g1 (t • hashToG1 env k a))))
  | [], d => rfl
  | a :: as, d => by
    simp only [kpEncLoop, deref_some, Res.ok_bind, setComponent_g1]
    rw [kpEncLoop_eq env k t as]
    rfl

/-- The components written for each share by the ciphertext-policy scheme. -/
def cpRows (env : Env G1 G2 GT) (k : Bytes) (g2 : G2) (g1a : G1) (r : Nat → ZMod q) :
    Nat → List (Bytes × (Bytes × ZMod q)) → List (Bytes × Obj G1 G2 GT)
  | _, [] => []
  | i, row :: rows =>
    (elementLabel b!"D" (hashKey env.md row.1), .g2 (r i • g2)) ::
    (elementLabel b!"C" (hashKey env.md row.1), .g1 (row.2.2 • g1a + (-(r i)) • hashToG1 env k row.2.1)) ::
    cpRows env k g2 g1a r (i + 1) rows

theorem cpEncLoop_eq (env : Env G1 G2 GT) (mpk : Key G1 G2 GT) (k : Bytes) (g2 : G2) (g1a : G1) (r : Nat → ZMod q)
    (h2 : SMap.find b!"g2" mpk.comps = some (.g2 g2)) (h1 : SMap.find b!"g1a" mpk.comps = some (.g1 g1a)) :
    ∀ (rows : List (Bytes × (Bytes × ZMod q))) (i : Nat) (d : Container G1 G2 GT),
    cpEncLoop env mpk (some k) r i rows d = .ok (SMap.addRows d (cpRows env k g2 g1a r i rows))
  | [], i, d => rfl
  | row :: rows, i, d => by
    simp only [cpEncLoop, getG2_of h2, getG1_of h1, deref_some, Res.ok_bind, setComponent_g1, setComponent_g2]
    rw [cpEncLoop_eq env mpk k g2 g1a r h2 h1 rows]
    rfl

/-- The components written for each share by the key-policy scheme. -/
def kpRows (env : Env G1 G2 GT) (k : Bytes) (g1 : G1) (g2 : G2) (r : Nat → ZMod q) :
    Nat → List (Bytes × (Bytes × ZMod q)) → List (Bytes × Obj G1 G2 GT)
  | _, [] => []
  | i, row :: rows =>
    (elementLabel b!"D" (hashKey env.md row.1), .g1 (row.2.2 • g1 + r i • hashToG1 env k row.2.1)) ::
    (elementLabel b!"d" (hashKey env.md row.1), .g2 (r i • g2)) ::
    kpRows env k g1 g2 r (i + 1) rows

theorem kpKeyLoop_eq (env : Env G1 G2 GT) (mpk : Key G1 G2 GT) (k : Bytes) (g1 : G1) (g2 : G2) (r : Nat → ZMod q)
    (h1 : SMap.find b!"g1" mpk.comps = some (.g1 g1)) (h2 : SMap.find b!"g2" mpk.comps = some (.g2 g2)) :
    ∀ (rows : List (Bytes × (Bytes × ZMod q))) (i : Nat) (d : Container G1 G2 GT),
    kpKeyLoop env mpk (some k) r i rows d = .ok (SMap.addRows d (kpRows env k g1 g2 r i rows))
  | [], i, d => rfl
  | row :: rows, i, d => by
    simp only [kpKeyLoop, getG2_of h2, getG1_of h1, deref_some, Res.ok_bind, setComponent_g1, setComponent_g2]
    rw [kpKeyLoop_eq env mpk k g1 g2 r h1 h2 rows]
    rfl

theorem mem_cpRows {env : Env G1 G2 GT} {k : Bytes} {g2 : G2} {g1a : G1} {r : Nat → ZMod q} :
    ∀ {rows : List (Bytes × (Bytes × ZMod q))} {i : Nat} {x : Bytes × Obj G1 G2 GT},
    x ∈ cpRows env k g2 g1a r i rows ↔ ∃ y ∈ rows.zipIdx i,
      x = (elementLabel b!"D" (hashKey env.md y.1.1), .g2 (r y.2 • g2)) ∨
      x = (elementLabel b!"C" (hashKey env.md y.1.1), .g1 (y.1.2.2 • g1a + (-(r y.2)) • hashToG1 env k y.1.2.1))
  | [], i, x => by simp [cpRows]
  | row :: rows, i, x => by
    simp only [cpRows, List.zipIdx_cons, List.mem_cons, mem_cpRows (rows := rows), exists_eq_or_imp, or_assoc]

theorem mem_kpRows {env : Env G1 G2 GT} {k : Bytes} {g1 : G1} {g2 : G2} {r : Nat → ZMod q} :
    ∀ {rows : List (Bytes × (Bytes × ZMod q))} {i : Nat} {x : Bytes × Obj G1 G2 GT},
    x ∈ kpRows env k g1 g2 r i rows ↔ ∃ y ∈ rows.zipIdx i,
      x = (elementLabel b!"D" (hashKey env.md y.1.1), .g1 (y.1.2.2 • g1 + r y.2 • hashToG1 env k y.1.2.1)) ∨
      x = (elementLabel b!"d" (hashKey env.md y.1.1), .g2 (r y.2 • g2))
  | [], i, x => by simp [kpRows]
  | row :: rows, i, x => by
    simp only [kpRows, List.zipIdx_cons, List.mem_cons, mem_kpRows (rows := rows), exists_eq_or_imp, or_assoc]

/-- A key of a sorted map occurs at one index. -/
theorem zipIdx_unique {α : Type} {m : List (Bytes × α)} (h : (m.map Prod.fst).Nodup) {x y : (Bytes × α) × Nat}
    (hx : x ∈ m.zipIdx) (hy : y ∈ m.zipIdx) (he : x.1.1 = y.1.1) : x = y := by
  obtain ⟨⟨a, v⟩, i⟩ := x
  obtain ⟨⟨b, w⟩, j⟩ := y
  rw [List.mem_zipIdx_iff_getElem?] at hx hy
  simp only at hx hy he
  have hi : i < m.length := (List.getElem?_eq_some_iff.mp hx).1
  have hij : i = j := by
    have h1 : (m.map Prod.fst)[i]? = some a := by simp [hx]
    have h2 : (m.map Prod.fst)[j]? = some a := by simp [hy, he]
    exact (List.getElem?_inj (by simpa using hi) h).mp (h1.trans h2.symm)
  subst hij
  rw [hx] at hy
  simp only [Option.some.injEq] at hy
  rw [hy]

/-- The ciphertext components of a share. -/
theorem find_cpRows {env : Env G1 G2 GT} {k : Bytes} {g2 : G2} {g1a : G1} {r : Nat → ZMod q}
    {rows : SMap (Bytes × ZMod q)} (hs : SMap.Sorted rows)
    (hinj : ∀ x ∈ rows, ∀ y ∈ rows, hashKey env.md x.1 = hashKey env.md y.1 → x.1 = y.1)
    (d : Container G1 G2 GT) {u l : Bytes} {σ : ZMod q} (hf : SMap.find u rows = some (l, σ)) :
    ∃ ρ : ZMod q,
      SMap.find (elementLabel b!"D" (hashKey env.md u)) (SMap.addRows d (cpRows env k g2 g1a r 0 rows)) =
        some (.g2 (ρ • g2)) ∧
      SMap.find (elementLabel b!"C" (hashKey env.md u)) (SMap.addRows d (cpRows env k g2 g1a r 0 rows)) =
        some (.g1 (σ • g1a + (-ρ) • hashToG1 env k l)) := by
  have hm : (u, (l, σ)) ∈ rows := SMap.mem_of_find hf
  obtain ⟨i, hi⟩ := List.mem_iff_getElem?.mp hm
  have hz : ((u, (l, σ)), i) ∈ rows.zipIdx := List.mem_zipIdx_iff_getElem?.mpr hi
  have uniq : ∀ y ∈ rows.zipIdx, hashKey env.md y.1.1 = hashKey env.md u → y = ((u, (l, σ)), i) := by
    intro y hy he
    have hy' : y.1 ∈ rows := by
      rw [List.mem_zipIdx_iff_getElem?] at hy
      exact List.mem_of_getElem? hy
    exact zipIdx_unique (SMap.nodup_keys hs) hy hz (hinj _ hy' _ hm he)
  refine ⟨r i, ?_, ?_⟩
  · refine SMap.find_addRows_fun _ _ _ _ ⟨_, mem_cpRows.mpr ⟨_, hz, .inl rfl⟩, rfl⟩ ?_
    intro p hp he
    obtain ⟨y, hy, rfl | rfl⟩ := mem_cpRows.mp hp
    · rw [uniq y hy (elementLabel_inj he)]
    · simp [elementLabel] at he
  · refine SMap.find_addRows_fun _ _ _ _ ⟨_, mem_cpRows.mpr ⟨_, hz, .inr rfl⟩, rfl⟩ ?_
    intro p hp he
    obtain ⟨y, hy, rfl | rfl⟩ := mem_cpRows.mp hp
    · simp [elementLabel] at he
    · rw [uniq y hy (elementLabel_inj he)]

/-- The key components of a share. -/
theorem find_kpRows {env : Env G1 G2 GT} {k : Bytes} {g1 : G1} {g2 : G2} {r : Nat → ZMod q}
    {rows : SMap (Bytes × ZMod q)} (hs : SMap.Sorted rows)
    (hinj : ∀ x ∈ rows, ∀ y ∈ rows, hashKey env.md x.1 = hashKey env.md y.1 → x.1 = y.1)
    (d : Container G1 G2 GT) {u l : Bytes} {σ : ZMod q} (hf : SMap.find u rows = some (l, σ)) :
    ∃ ρ : ZMod q,
      SMap.find (elementLabel b!"D" (hashKey env.md u)) (SMap.addRows d (kpRows env k g1 g2 r 0 rows)) =
        some (.g1 (σ • g1 + ρ • hashToG1 env k l)) ∧
      SMap.find (elementLabel b!"d" (hashKey env.md u)) (SMap.addRows d (kpRows env k g1 g2 r 0 rows)) =
        some (.g2 (ρ • g2)) := by
  have hm : (u, (l, σ)) ∈ rows := SMap.mem_of_find hf
  obtain ⟨i, hi⟩ := List.mem_iff_getElem?.mp hm
  have hz : ((u, (l, σ)), i) ∈ rows.zipIdx := List.mem_zipIdx_iff_getElem?.mpr hi
  have uniq : ∀ y ∈ rows.zipIdx, hashKey env.md y.1.1 = hashKey env.md u → y = ((u, (l, σ)), i) := by
    intro y hy he
    have hy' : y.1 ∈ rows := by
      rw [List.mem_zipIdx_iff_getElem?] at hy
      exact List.mem_of_getElem? hy
    exact zipIdx_unique (SMap.nodup_keys hs) hy hz (hinj _ hy' _ hm he)
  refine ⟨r i, ?_, ?_⟩
  · refine SMap.find_addRows_fun _ _ _ _ ⟨_, mem_kpRows.mpr ⟨_, hz, .inl rfl⟩, rfl⟩ ?_
    intro p hp he
    obtain ⟨y, hy, rfl | rfl⟩ := mem_kpRows.mp hp
    · rw [uniq y hy (elementLabel_inj he)]
    · simp [elementLabel] at he
  · refine SMap.find_addRows_fun _ _ _ _ ⟨_, mem_kpRows.mpr ⟨_, hz, .inr rfl⟩, rfl⟩ ?_
    intro p hp he
    obtain ⟨y, hy, rfl | rfl⟩ := mem_kpRows.mp hp
    · simp [elementLabel] at he
    · rw [uniq y hy (elementLabel_inj he)]

/-- A name that is not a row label is left alone. -/
theorem find_cpRows_other {env : Env G1 G2 GT} {k : Bytes} {g2 : G2} {g1a : G1} {r : Nat → ZMod q}
    {rows : List (Bytes × (Bytes × ZMod q))} {i : Nat} (d : Container G1 G2 GT) {n : Bytes}
    (hn : ∀ u, n ≠ elementLabel b!"D" u ∧ n ≠ elementLabel b!"C" u) :
    SMap.find n (SMap.addRows d (cpRows env k g2 g1a r i rows)) = SMap.find n d := by
  apply SMap.find_addRows_not_mem
  intro h
  obtain ⟨p, hp, he⟩ := List.mem_map.mp h
  obtain ⟨y, _, rfl | rfl⟩ := mem_cpRows.mp hp
  · exact (hn _).1 he.symm
  · exact (hn _).2 he.symm

theorem find_kpRows_other {env : Env G1 G2 GT} {k : Bytes} {g1 : G1} {g2 : G2} {r : Nat → ZMod q}
    {rows : List (Bytes × (Bytes × ZMod q))} {i : Nat} (d : Container G1 G2 GT) {n : Bytes}
    (hn : ∀ u, n ≠ elementLabel b!"D" u ∧ n ≠ elementLabel b!"d" u) :
    SMap.find n (SMap.addRows d (kpRows env k g1 g2 r i rows)) = SMap.find n d := by
  apply SMap.find_addRows_not_mem
  intro h
  obtain ⟨p, hp, he⟩ := List.mem_map.mp h
  obtain ⟨y, _, rfl | rfl⟩ := mem_kpRows.mp hp
  · exact (hn _).1 he.symm
  · exact (hn _).2 he.symm

/-- The component of an attribute. -/
theorem find_attrRow {env : Env G1 G2 GT} {base : Bytes} {f : Bytes → G1} {as : List Bytes}
    (hinj : ∀ x ∈ as, ∀ y ∈ as, hashKey env.md x = hashKey env.md y → x = y)
    (d : Container G1 G2 GT) {a : Bytes} (ha : a ∈ as) :
    SMap.find (elementLabel base (hashKey env.md a))
      (SMap.addRows d (as.map fun a => (elementLabel base (hashKey env.md a), .g1 (f a)))) = some (.g1 (f a)) := by
  refine SMap.find_addRows_fun _ _ _ _ ⟨_, List.mem_map.mpr ⟨a, ha, rfl⟩, rfl⟩ ?_
  intro p hp he
  obtain ⟨b, hb, rfl⟩ := List.mem_map.mp hp
  rw [hinj b hb a ha (elementLabel_inj he)]

theorem find_attrRow_other {env : Env G1 G2 GT} {base : Bytes} {f : Bytes → G1} {as : List Bytes}
    (d : Container G1 G2 GT) {n : Bytes} (hn : ∀ u, n ≠ elementLabel base u) :
    SMap.find n (SMap.addRows d (as.map fun a => (elementLabel base (hashKey env.md a), .g1 (f a)))) =
      SMap.find n d := by
  apply SMap.find_addRows_not_mem
  intro h
  obtain ⟨p, hp, he⟩ := List.mem_map.mp h
  obtain ⟨b, _, rfl⟩ := List.mem_map.mp hp
  exact hn _ he.symm

theorem cpDecLoop_eq (env : Env G1 G2 GT) (key ct : Container G1 G2 GT)
    (kx cx : Bytes × (Bytes × ZMod q) → G1) (dx : Bytes × (Bytes × ZMod q) → G2) :
    ∀ (rows : List (Bytes × (Bytes × ZMod q))) (prod1 : G1) (l : List (G1 × G2)),
    (∀ row ∈ rows,
      SMap.find (elementLabel b!"KX" (hashKey env.md row.2.1)) key = some (.g1 (kx row)) ∧
      SMap.find (elementLabel b!"C" (hashKey env.md row.1)) ct = some (.g1 (cx row)) ∧
      SMap.find (elementLabel b!"D" (hashKey env.md row.1)) ct = some (.g2 (dx row))) →
    cpDecLoop env key ct rows prod1 l =
      .ok (prod1 + (rows.map fun row => row.2.2 • cx row).sum, l ++ rows.map fun row => (row.2.2 • kx row, dx row))
  | [], prod1, l, _ => by simp [cpDecLoop]
  | row :: rows, prod1, l, h => by
    obtain ⟨h1, h2, h3⟩ := h row (by simp)
    simp only [cpDecLoop, getG1_of h1, getG1_of h2, getG2_of h3, Res.ok_bind, notNull_some, deref_some]
    rw [cpDecLoop_eq env key ct kx cx dx rows _ _ (fun r hr => h r (by simp [hr]))]
    simp [add_assoc]

theorem kpDecLoop_eq (env : Env G1 G2 GT) (key ct : Container G1 G2 GT)
    (ci di : Bytes × (Bytes × ZMod q) → G1) (dd : Bytes × (Bytes × ZMod q) → G2) :
    ∀ (rows : List (Bytes × (Bytes × ZMod q))) (prod1 : G1) (l : List (G1 × G2)),
    (∀ row ∈ rows,
      SMap.find (elementLabel b!"C" (hashKey env.md row.2.1)) ct = some (.g1 (ci row)) ∧
      SMap.find (elementLabel b!"D" (hashKey env.md row.1)) key = some (.g1 (di row)) ∧
      SMap.find (elementLabel b!"d" (hashKey env.md row.1)) key = some (.g2 (dd row))) →
    kpDecLoop env key ct rows prod1 l =
      .ok (prod1 + (rows.map fun row => row.2.2 • di row).sum, l ++ rows.map fun row => (row.2.2 • ci row, dd row))
  | [], prod1, l, _ => by simp [kpDecLoop]
  | row :: rows, prod1, l, h => by
    obtain ⟨h1, h2, h3⟩ := h row (by simp)
    simp only [kpDecLoop, getG1_of h1, getG1_of h2, getG2_of h3, Res.ok_bind, notNull_some, deref_some]
    rw [kpDecLoop_eq env key ct ci di dd rows _ _ (fun r hr => h r (by simp [hr]))]
    simp [add_assoc]

theorem sum_smul_list {α : Type} {M : Type} [AddCommGroup M] [Module (ZMod q) M] (f : α → ZMod q) (x : M) :
    ∀ l : List α, (l.map fun a => f a • x).sum = (l.map f).sum • x
  | [] => by simp
  | a :: l => by simp [sum_smul_list f x l, add_smul]

/-- The algebra of decapsulation, ciphertext-policy. -/
theorem cp_algebra {e : G1 → G2 → GT} (hb : Bilinear q e) {α : Type} (rows : List α) (c σ ρ : α → ZMod q)
    (H : α → G1) (g1 : G1) (g2 : G2) (alpha a s t : ZMod q) (hsum : (rows.map fun x => c x * σ x).sum = s) :
    e (s • g1) (alpha • g2 + t • (a • g2)) -
      ((rows.map fun x => e (c x • t • H x) (ρ x • g2)).sum +
        e (0 + (rows.map fun x => c x • (σ x • (a • g1) + (-(ρ x)) • H x)).sum) (t • g2)) =
      s • (alpha • e g1 g2) := by
  have key : (rows.map fun x => e (c x • t • H x) (ρ x • g2)).sum +
      (rows.map fun x => e (c x • (σ x • (a • g1) + (-(ρ x)) • H x)) (t • g2)).sum =
      (s * a * t) • e g1 g2 := by
    rw [← List.sum_map_add, ← hsum]
    have : ∀ x, e (c x • t • H x) (ρ x • g2) + e (c x • (σ x • (a • g1) + (-(ρ x)) • H x)) (t • g2) =
        (c x * σ x * a * t) • e g1 g2 := by
      intro x
      simp only [hb.smul_left, hb.smul_right, hb.add_left]
      module
    simp only [this]
    rw [sum_smul_list (fun x => c x * σ x * a * t)]
    congr 1
    rw [← List.sum_map_mul_right, ← List.sum_map_mul_right]
  rw [zero_add, hb.sum_left, key]
  simp only [hb.smul_left, hb.smul_right, hb.add_right]
  module

/-- The algebra of decapsulation, key-policy. -/
theorem kp_algebra {e : G1 → G2 → GT} (hb : Bilinear q e) {α : Type} (rows : List α) (c σ ρ : α → ZMod q)
    (H : α → G1) (g1 : G1) (g2 : G2) (y t : ZMod q) (hsum : (rows.map fun x => c x * σ x).sum = y) :
    e (0 + (rows.map fun x => c x • (σ x • g1 + ρ x • H x)).sum) (t • g2) -
      (rows.map fun x => e (c x • t • H x) (ρ x • g2)).sum = t • (y • e g1 g2) := by
  rw [zero_add, hb.sum_left]
  have : ∀ x, e (c x • (σ x • g1 + ρ x • H x)) (t • g2) =
      e (c x • t • H x) (ρ x • g2) + (c x * σ x * t) • e g1 g2 := by
    intro x
    simp only [hb.smul_left, hb.smul_right, hb.add_left]
    module
  simp only [this]
  rw [List.sum_map_add, add_sub_cancel_left, sum_smul_list (fun x => c x * σ x * t), List.sum_map_mul_right, hsum]
  module


/-! ### Bodies -/

theorem cpParams_ok (env : Env G1 G2 GT) (r : ParamRand q G1 G2) : ∃ P M, cpParams env r = .ok (P, M) ∧
    SMap.find b!"g1" P = some (.g1 r.g1) ∧ SMap.find b!"g2" P = some (.g2 r.g2) ∧
    SMap.find b!"g1a" P = some (.g1 (r.a • r.g1)) ∧ SMap.find b!"A" P = some (.gt (r.alpha • env.e r.g1 r.g2)) ∧
    SMap.find b!"k" P = some (.bytes r.k) ∧ SMap.find b!"alpha" M = some (.zp r.alpha.val) ∧
    SMap.find b!"g2a" M = some (.g2 (r.a • r.g2)) :=
  ⟨_, _, rfl, rfl, rfl, rfl, rfl, rfl, rfl, rfl⟩

theorem kpParams_ok (env : Env G1 G2 GT) (r : ParamRand q G1 G2) : ∃ P M, kpParams env r = .ok (P, M) ∧
    SMap.find b!"g1" P = some (.g1 r.g1) ∧ SMap.find b!"g2" P = some (.g2 r.g2) ∧
    SMap.find b!"Y" P = some (.gt (r.alpha • env.e r.g1 r.g2)) ∧
    SMap.find b!"k" P = some (.bytes r.k) ∧ SMap.find b!"y" M = some (.zp r.alpha.val) :=
  ⟨_, _, rfl, rfl, rfl, rfl, rfl, rfl⟩

/-- The shape of an accepted policy. -/
theorem accepted_shape {mk : Mktime} {s : Bytes} {p : Policy} (h : createPolicyTree mk s = .ok (some p)) :
    p.compact = s ∧ ∃ t, p.root = some t ∧ AndOr t ∧ BinAnd t ∧ Fresh t ∧ ∀ l ∈ leaves t, l.idx.isSome := by
  obtain ⟨e, t, d', hv, hc, he, hev, rfl⟩ := accepted_eval h
  obtain ⟨cs, hb, -⟩ := e.eval_built _ _ _ hv hev
  obtain ⟨ha, hbin, hf, -, hi⟩ := built_shape hb
  refine ⟨?_, t, rfl, ha, hbin, hf, hi⟩
  have hin := e.eval_input (mk := mk) s { input := s }
  rw [hev] at hin
  have h2 : Res.ok (t, d') = .ok (t, { d' with input := s }) := hin
  simp only [Res.ok.injEq, Prod.mk.injEq, true_and] at h2
  show d'.input = s
  rw [h2]

/-- The component labels of the rows of a policy. -/
def rowLabels (md : Bytes → Bytes) (p : Policy) : List Bytes :=
  match p.root with
  | some t => (leaves t).map fun l => hashKey md (uniqueLabel (if p.hasDup then p.dupCount else []) l)
  | none => []

/-- No two names of the list get the same component label. -/
def NoClash (md : Bytes → Bytes) (names : List Bytes) : Prop :=
  ∀ x ∈ names, ∀ y ∈ names, hashKey md x = hashKey md y → x = y

theorem rows_inj {md : Bytes → Bytes} {p : Policy} {t : TNode} (hroot : p.root = some t)
    (h : (rowLabels md p).Nodup) {F : Type} {rows : SMap (Bytes × F)}
    (hrows : ∀ row ∈ rows, ∃ l ∈ leaves t, row.1 = uniqueLabel (if p.hasDup then p.dupCount else []) l ∧
        row.2.1 = l.label) :
    ∀ x ∈ rows, ∀ y ∈ rows, hashKey md x.1 = hashKey md y.1 → x.1 = y.1 := by
  intro x hx y hy he
  obtain ⟨l, hl, e1, -⟩ := hrows x hx
  obtain ⟨m, hm, e2, -⟩ := hrows y hy
  rw [e1, e2] at he
  simp only [rowLabels, hroot] at h
  have := List.inj_on_of_nodup_map h hl hm he
  rw [e1, e2, this]

theorem unique_of_rowLabels {md : Bytes → Bytes} {p : Policy} {t : TNode} (hroot : p.root = some t)
    (h : (rowLabels md p).Nodup) :
    ((leaves t).map (uniqueLabel (if p.hasDup then p.dupCount else []))).Nodup := by
  simp only [rowLabels, hroot] at h
  have : (leaves t).map (fun l => hashKey md (uniqueLabel (if p.hasDup then p.dupCount else []) l)) =
      ((leaves t).map (uniqueLabel (if p.hasDup then p.dupCount else []))).map (hashKey md) := by simp
  rw [this] at h
  exact List.Nodup.of_map _ h

/-- Components that agree except for the masked message. -/
def SameKem (c d : Container G1 G2 GT) : Prop := ∀ n, n ≠ b!"_ED" → SMap.find n c = SMap.find n d

theorem SameKem.label {c d : Container G1 G2 GT} (h : SameKem c d) (b : UInt8) (hb : b ≠ 95) (n : Bytes) (bs : Bytes) :
    SMap.find (elementLabel (b :: bs) n) c = SMap.find (elementLabel (b :: bs) n) d := by
  apply h
  simp [elementLabel, hb]

/-- The components of a ciphertext-policy decryption key. -/
def cpDk (env : Env G1 G2 GT) (pr : ParamRand q G1 G2) (al : AttrList) (t : ZMod q) : Container G1 G2 GT :=
  SMap.addRows
      (SMap.insert b!"L" (.g2 (t • pr.g2)) (SMap.insert b!"K" (.g2 (pr.alpha • pr.g2 + t • (pr.a • pr.g2)))
        (SMap.insert b!"input" (.attrs al) [])))
      (al.attrs.map fun a => (elementLabel b!"KX" (hashKey env.md a), .g1 (t • hashToG1 env pr.k a)))

/-- The components of a key-policy decryption key. -/
def kpDk (env : Env G1 G2 GT) (pr : ParamRand q G1 G2) (s : Bytes) (r : Nat → ZMod q)
    (rows : SMap (Bytes × ZMod q)) : Container G1 G2 GT :=
  SMap.addRows (SMap.insert b!"input" (.bytes s) []) (kpRows env pr.k pr.g1 pr.g2 r 0 rows)

/-- The components of a key-policy ciphertext. -/
def kpCt (env : Env G1 G2 GT) (pr : ParamRand q G1 G2) (al : AttrList) (t : ZMod q) (c : Container G1 G2 GT) :
    Container G1 G2 GT :=
  SMap.insert b!"attributes" (.attrs al) (SMap.addRows (SMap.insert b!"Cpr2" (.g2 (t • pr.g2)) c)
    (al.attrs.map fun a => (elementLabel b!"C" (hashKey env.md a), .g1 (t • hashToG1 env pr.k a))))

section bodies
variable {env : Env G1 G2 GT} (hb : Bilinear q env.e) (hnd : env.ndebug = false) (pr : ParamRand q G1 G2)

/-- Key generation and encapsulation succeed, and decapsulation returns the key, ciphertext-policy. -/
theorem cp_bodies (hb : Bilinear q env.e) (hnd : env.ndebug = false) {pr : ParamRand q G1 G2}
    {mpk msk : Key G1 G2 GT} (hpm : cpParams env pr = .ok (mpk.comps, msk.comps))
    {c1 c2 c3 : Ctx G1 G2 GT} (hc1 : c1.ready = true) (hc2 : c2.ready = true) (hc3 : c3.ready = true)
    {s : Bytes} {p : Policy} (hp : createPolicyTree env.mktime s = .ok (some p)) (al : AttrList) (t : ZMod q)
    (r : Rand q) (ct : Ciphertext G1 G2 GT) {len : Nat} (hlen : len = 16 ∨ len = 32)
    (hrows : (rowLabels env.md p).Nodup) (hattrs : NoClash env.md al.attrs) (hsat : Satisfies al.attrs p) :
    ∃ dk ct', cpKeyBody env c1 mpk msk al t = .ok dk ∧
      cpEncBody env c2 mpk p len r ct =
        .ok (env.kdf len (env.md (groupSerialize 0xB4 (env.wT (r.x • pr.alpha • env.e pr.g1 pr.g2)))), ct') ∧
      ∀ comps, SameKem comps ct'.comps → cpDecBody q env c3 dk comps len =
        .ok (env.kdf len (env.md (groupSerialize 0xB4 (env.wT (r.x • pr.alpha • env.e pr.g1 pr.g2))))) := by
  obtain ⟨P, M, hPM, f1, f2, f3, f4, f5, f6, f7⟩ := cpParams_ok env pr
  rw [hpm] at hPM
  simp only [Res.ok.injEq, Prod.mk.injEq] at hPM
  obtain ⟨rfl, rfl⟩ := hPM
  obtain ⟨hcomp, t0, hroot, hao, hbin, hfr, hidx⟩ := accepted_shape hp
  obtain ⟨t1, hroot', hs⟩ := hsat
  rw [hroot] at hroot'
  simp only [Option.some.injEq] at hroot'
  subst hroot'
  obtain ⟨sh, co, n, p', h1, h2, hsort, hne, hfind, hsum, hkeys⟩ :=
    share_recover env.sort p t0 al.attrs r.x r.tape hroot hao hbin hfr hidx (unique_of_rowLabels hroot hrows) hs
  have hinj := rows_inj hroot hrows hkeys
  have hkey : cpKeyBody env c1 mpk msk al t = .ok (cpDk env pr al t) := by
    simp only [cpKeyBody, getBytes_of f5, getZP_of f6, getG2_of f2, getG2_of f7, usePairing_ok hc1, Res.ok_bind,
      deref_some, setComponent_attrs, setComponent_g2, cpKeyLoop_eq, ZMod.natCast_zmod_val, cpDk]
  have henc : cpEncBody env c2 mpk p len r ct =
      .ok (env.kdf len (env.md (groupSerialize 0xB4 (env.wT (r.x • pr.alpha • env.e pr.g1 pr.g2)))),
        { ct with alg := c2.alg, comps := SMap.addRows (SMap.insert b!"Cprime" (.g1 (r.x • pr.g1))
          (SMap.insert b!"policy" (.bytes s) ct.comps)) (cpRows env pr.k pr.g2 (pr.a • pr.g1) r.r 0 sh.results) }) := by
    simp only [cpEncBody, getBytes_of f5, getGT_of f4, getG1_of f1, usePairing_ok hc2, Res.ok_bind,
      deref_some, setComponent_bytes, setComponent_g1, hnd, h1, cpEncLoop_eq env mpk pr.k pr.g2 (pr.a • pr.g1) r.r f2 f3,
      symKeyOf_ok env _ hlen, hcomp]
  refine ⟨_, _, hkey, henc, ?_⟩
  intro comps hsame
  have k1 : SMap.find b!"input" (cpDk env pr al t) =
      some (.attrs al) := by
    unfold cpDk; rw [find_attrRow_other _ (by intro u; simp [elementLabel])]; rfl
  have k2 : SMap.find b!"K" (cpDk env pr al t) =
      some (.g2 (pr.alpha • pr.g2 + t • (pr.a • pr.g2))) := by
    unfold cpDk; rw [find_attrRow_other _ (by intro u; simp [elementLabel])]; rfl
  have k3 : SMap.find b!"L" (cpDk env pr al t) =
      some (.g2 (t • pr.g2)) := by
    unfold cpDk; rw [find_attrRow_other _ (by intro u; simp [elementLabel])]; rfl
  have e1 : SMap.find b!"policy" comps = some (.bytes s) := by
    rw [hsame _ (by decide), find_cpRows_other _ (by intro u; simp [elementLabel]), SMap.find_insert, if_neg (by decide),
      SMap.find_insert, if_pos rfl]
  have e2 : SMap.find b!"Cprime" comps = some (.g1 (r.x • pr.g1)) := by
    rw [hsame _ (by decide), find_cpRows_other _ (by intro u; simp [elementLabel]), SMap.find_insert, if_pos rfl]
  have hrow : ∀ row ∈ co.results, ∃ ρ : ZMod q,
      SMap.find (elementLabel b!"KX" (hashKey env.md row.2.1)) (cpDk env pr al t) =
        some (.g1 (t • hashToG1 env pr.k row.2.1)) ∧
      SMap.find (elementLabel b!"C" (hashKey env.md row.1)) comps =
        some (.g1 (coeffOf sh.results row.1 • (pr.a • pr.g1) + (-ρ) • hashToG1 env pr.k row.2.1)) ∧
      SMap.find (elementLabel b!"D" (hashKey env.md row.1)) comps = some (.g2 (ρ • pr.g2)) := by
    intro row hr
    obtain ⟨hA, hf⟩ := hfind row hr
    obtain ⟨ρ, g1, g2⟩ := find_cpRows (env := env) (k := pr.k) (g2 := pr.g2) (g1a := pr.a • pr.g1) (r := r.r) hsort hinj
      (SMap.insert b!"Cprime" (.g1 (r.x • pr.g1)) (SMap.insert b!"policy" (.bytes s) ct.comps)) hf
    exact ⟨ρ, find_attrRow hattrs _ hA, (hsame.label 67 (by decide) _ _).trans g2,
      (hsame.label 68 (by decide) _ _).trans g1⟩
  choose! ρ hρ using hrow
  simp only [cpDecBody, Container.getComponent, k1, getBytes_of e1, Res.ok_bind, notNull_some, hp, castAttrs, hnd, h2,
    Bool.true_eq_false, if_false, usePairing_ok hc3]
  rw [cpDecLoop_eq env _ comps (fun row => t • hashToG1 env pr.k row.2.1)
    (fun row => coeffOf sh.results row.1 • (pr.a • pr.g1) + (-(ρ row)) • hashToG1 env pr.k row.2.1)
    (fun row => ρ row • pr.g2) co.results 0 [] hρ]
  have hl : (co.results.map fun row => (row.2.2 • t • hashToG1 env pr.k row.2.1, ρ row • pr.g2)).length ≠ 0 := by
    simpa using hne
  simp only [Res.ok_bind, List.nil_append, multiPairing, hl, if_false, getG1_of e2, getG2_of k2, getG2_of k3,
    notNull_some, symKeyOf_ok env _ hlen, List.map_map, Function.comp_def]
  have := cp_algebra hb co.results (fun row => row.2.2) (fun row => coeffOf sh.results row.1) ρ
    (fun row => hashToG1 env pr.k row.2.1) pr.g1 pr.g2 pr.alpha pr.a r.x t hsum
  rw [this]

/-- Key generation and encapsulation succeed, and decapsulation returns the key, key-policy. -/
theorem kp_bodies (hb : Bilinear q env.e) (hnd : env.ndebug = false) {pr : ParamRand q G1 G2}
    {mpk msk : Key G1 G2 GT} (hpm : kpParams env pr = .ok (mpk.comps, msk.comps))
    {c1 c2 c3 : Ctx G1 G2 GT} (hc1 : c1.ready = true) (hc2 : c2.ready = true) (hc3 : c3.ready = true)
    {s : Bytes} {p : Policy} (hp : createPolicyTree env.mktime s = .ok (some p)) (al : AttrList)
    (r r' : Rand q) (ct : Ciphertext G1 G2 GT) {len : Nat} (hlen : len = 16 ∨ len = 32)
    (hrows : (rowLabels env.md p).Nodup) (hattrs : NoClash env.md al.attrs) (hsat : Satisfies al.attrs p) :
    ∃ dk ct', kpKeyBody env c1 mpk msk p r.tape r.r = .ok dk ∧
      kpEncBody env c2 mpk al len r' ct =
        .ok (env.kdf len (env.md (groupSerialize 0xB4 (env.wT (r'.x • pr.alpha • env.e pr.g1 pr.g2)))), ct') ∧
      ∀ comps, SameKem comps ct'.comps → kpDecBody q env c3 dk comps len =
        .ok (env.kdf len (env.md (groupSerialize 0xB4 (env.wT (r'.x • pr.alpha • env.e pr.g1 pr.g2))))) := by
  obtain ⟨P, M, hPM, f1, f2, f3, f4, f5⟩ := kpParams_ok env pr
  rw [hpm] at hPM
  simp only [Res.ok.injEq, Prod.mk.injEq] at hPM
  obtain ⟨rfl, rfl⟩ := hPM
  obtain ⟨hcomp, t0, hroot, hao, hbin, hfr, hidx⟩ := accepted_shape hp
  obtain ⟨t1, hroot', hs⟩ := hsat
  rw [hroot] at hroot'
  simp only [Option.some.injEq] at hroot'
  subst hroot'
  obtain ⟨sh, co, n, p', h1, h2, hsort, hne, hfind, hsum, hkeys⟩ :=
    share_recover env.sort p t0 al.attrs pr.alpha r.tape hroot hao hbin hfr hidx (unique_of_rowLabels hroot hrows) hs
  have hinj := rows_inj hroot hrows hkeys
  have hkey : kpKeyBody env c1 mpk msk p r.tape r.r = .ok (kpDk env pr s r.r sh.results) := by
    simp only [kpKeyBody, getBytes_of f4, getZP_of f5, Res.ok_bind,
      deref_some, setComponent_bytes, ZMod.natCast_zmod_val, hnd, h1, hcomp]
    split
    · rename_i h; rw [h]; rfl
    · simp only [usePairing_ok hc1, Res.ok_bind, kpKeyLoop_eq env mpk pr.k pr.g1 pr.g2 r.r f1 f2]
      rfl
  have henc : kpEncBody env c2 mpk al len r' ct =
      .ok (env.kdf len (env.md (groupSerialize 0xB4 (env.wT (r'.x • pr.alpha • env.e pr.g1 pr.g2)))),
        { ct with alg := c2.alg, comps := kpCt env pr al r'.x ct.comps }) := by
    simp only [kpEncBody, getBytes_of f4, getGT_of f3, getG2_of f2, usePairing_ok hc2, Res.ok_bind,
      deref_some, setComponent_attrs, setComponent_g2, kpEncLoop_eq, symKeyOf_ok env _ hlen, kpCt]
  refine ⟨_, _, hkey, henc, ?_⟩
  intro comps hsame
  have k1 : SMap.find b!"input" (kpDk env pr s r.r sh.results) =
      some (.bytes s : Obj G1 G2 GT) := by
    unfold kpDk; rw [find_kpRows_other _ (by intro u; simp [elementLabel])]; rfl
  have e1 : SMap.find b!"attributes" comps = some (.attrs al) := by
    rw [hsame _ (by decide)]; unfold kpCt
    rw [SMap.find_insert, if_pos rfl]
  have e2 : SMap.find b!"Cpr2" comps = some (.g2 (r'.x • pr.g2)) := by
    rw [hsame _ (by decide)]; unfold kpCt
    rw [SMap.find_insert, if_neg (by decide), find_attrRow_other _ (by intro u; simp [elementLabel]),
      SMap.find_insert, if_pos rfl]
  have hrow : ∀ row ∈ co.results, ∃ ρ : ZMod q,
      SMap.find (elementLabel b!"C" (hashKey env.md row.2.1)) comps =
        some (.g1 (r'.x • hashToG1 env pr.k row.2.1)) ∧
      SMap.find (elementLabel b!"D" (hashKey env.md row.1)) (kpDk env pr s r.r sh.results) =
        some (.g1 (coeffOf sh.results row.1 • pr.g1 + ρ • hashToG1 env pr.k row.2.1)) ∧
      SMap.find (elementLabel b!"d" (hashKey env.md row.1)) (kpDk env pr s r.r sh.results) = some (.g2 (ρ • pr.g2)) := by
    intro row hr
    obtain ⟨hA, hf⟩ := hfind row hr
    obtain ⟨ρ, g1, g2⟩ := find_kpRows (env := env) (k := pr.k) (g1 := pr.g1) (g2 := pr.g2) (r := r.r) hsort hinj
      (SMap.insert b!"input" (.bytes s) []) hf
    refine ⟨ρ, ?_, g1, g2⟩
    rw [hsame.label 67 (by decide)]; unfold kpCt
    rw [SMap.find_insert, if_neg (by simp [elementLabel])]
    exact find_attrRow hattrs _ hA
  choose! ρ hρ using hrow
  simp only [kpDecBody, Container.getComponent, e1, getBytes_of k1, Res.ok_bind, notNull_some, hp, castAttrs, hnd, h2,
    Bool.true_eq_false, if_false, usePairing_ok hc3]
  rw [kpDecLoop_eq env _ comps (fun row => r'.x • hashToG1 env pr.k row.2.1)
    (fun row => coeffOf sh.results row.1 • pr.g1 + ρ row • hashToG1 env pr.k row.2.1)
    (fun row => ρ row • pr.g2) co.results 0 [] hρ]
  have hl : (co.results.map fun row => (row.2.2 • r'.x • hashToG1 env pr.k row.2.1, ρ row • pr.g2)).length ≠ 0 := by
    simpa using hne
  simp only [Res.ok_bind, List.nil_append, multiPairing, hl, if_false, getG2_of e2,
    notNull_some, symKeyOf_ok env _ hlen, List.map_map, Function.comp_def]
  have := kp_algebra hb co.results (fun row => row.2.2) (fun row => coeffOf sh.results row.1) ρ
    (fun row => hashToG1 env pr.k row.2.1) pr.g1 pr.g2 pr.alpha r'.x hsum
  rw [this]

end bodies
end Scheme
end Abe
