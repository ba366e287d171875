import Verif.Spec.Attack
import Verif.Proof.Scheme
import Verif.Proof.Privacy
import Verif.Props.LSSS
import Mathlib.LinearAlgebra.Pi
/-!
# Linear attacks on the schemes

All elements an attacker sees are multiples of the generators, and the multiples are simple functions of the random
values. A linear functional on functions of the random values kills all products an attacker can form but not the
product behind the session key.
-/
set_option linter.unusedSimpArgs false
set_option linter.unusedSectionVars false
set_option autoImplicit false
namespace Abe

/-! ### Maps of functions -/

theorem SMap.find_mapVal {α β : Type} (f : α → β) (n : Bytes) : ∀ m : SMap α,
    SMap.find n (m.map fun p => (p.1, f p.2)) = (SMap.find n m).map f
  | [] => rfl
  | (k, v) :: m => by
    simp only [List.map_cons, SMap.find]
    split
    · rfl
    · exact SMap.find_mapVal f n m

theorem SMap.insert_mapVal {α β : Type} (f : α → β) (k : Bytes) (v : α) : ∀ m : SMap α,
    SMap.insert k (f v) (m.map fun p => (p.1, f p.2)) = (SMap.insert k v m).map fun p => (p.1, f p.2)
  | [] => rfl
  | (k', v') :: m => by
    simp only [List.map_cons, SMap.insert]
    split
    · rfl
    · split
      · rfl
      · rw [SMap.insert_mapVal f k v m]; rfl

theorem SMap.addRows_mapVal {α β : Type} (f : α → β) : ∀ (l : List (Bytes × α)) (m : SMap α),
    SMap.addRows (m.map fun p => (p.1, f p.2)) (l.map fun p => (p.1, f p.2)) =
      (SMap.addRows m l).map fun p => (p.1, f p.2)
  | [], _ => rfl
  | (k, v) :: l, m => by
    show SMap.addRows (SMap.insert k (f v) _) _ = (SMap.addRows (SMap.insert k v m) l).map _
    rw [SMap.insert_mapVal, SMap.addRows_mapVal f l]

theorem SMap.mem_of_find' {α : Type} {n : Bytes} {v : α} : ∀ {m : SMap α}, SMap.find n m = some v → (n, v) ∈ m
  | [], h => by simp [SMap.find] at h
  | (k, w) :: m, h => by
    simp only [SMap.find] at h
    split at h
    · rename_i hk
      simp only [Option.some.injEq] at h
      subst h; subst hk; simp
    · exact List.mem_cons_of_mem _ (SMap.mem_of_find' h)

/-! ### Shares as functions of secret and draws -/

section skel
variable {F : Type} [Field F] [DecidableEq F]

/-- A share as a function of the secret and the draws. -/
abbrev ShareFn (F : Type) := F → (Nat → F) → F

/-- The shares of the leaves. -/
def emitFn (t : TNode) : List (Leaf × ShareFn F) :=
  (rleaves t).zipIdx.map fun x => (x.1, fun s tape => (((emit tape t s 0)[x.2]?).map Prod.snd).getD 0)

theorem emitFn_eval (t : TNode) (s : F) (tape : Nat → F) :
    (emitFn t).map (fun x => (x.1, x.2 s tape)) = emit tape t s 0 := by
  have h := emit_fst tape t s 0
  apply List.ext_getElem?
  intro i
  simp only [emitFn, List.map_map, List.getElem?_map, Function.comp_def]
  rw [← h]
  simp only [List.getElem?_zipIdx, List.getElem?_map]
  cases he : (emit tape t s 0)[i]? with
  | none => simp
  | some x => simp [he]

/-- The rows of a sharing. -/
def shareRows (p : Policy) (t : TNode) : SMap (Bytes × ShareFn F) :=
  SMap.addRows [] ((emitFn t).map fun x =>
    (uniqueLabel (effCount ({} : LSSS F) p) x.1, (x.1.label, x.2)))

theorem shareSecret_rows (p : Policy) (t : TNode) (hroot : p.root = some t) (hpos : PosGates t)
    (hidx : ∀ l ∈ leaves t, l.idx.isSome) (s : F) (tape : Nat → F) :
    ∃ o n, shareSecret false {} (some p) s tape = .ok (o, n) ∧
      o.results = (shareRows p t).map fun x => (x.1, (x.2.1, x.2.2 s tape)) := by
  have hi : IdxOkT (effCount ({} : LSSS F) p) t := fun l hl _ => hidx l hl
  refine ⟨_, _, shareSecret_ok {} p t s tape hroot hpos hi, ?_⟩
  show SMap.addRows [] _ = _
  have := SMap.addRows_mapVal (fun x : Bytes × ShareFn F => (x.1, x.2 s tape))
    ((emitFn t).map fun x => (uniqueLabel (effCount ({} : LSSS F) p) x.1, (x.1.label, x.2))) []
  unfold shareRows
  rw [← this, ← emitFn_eval t s tape]
  simp only [List.map_map, List.map_nil]
  rfl

/-- An unsatisfying set sees only zero shares for some sharing of one. -/
theorem hide_rows (p : Policy) (t : TNode) (A : List Bytes) (hpos : PosGates t)
    (hchar : ∀ k, 0 < k → k ≤ t.size → (k : F) ≠ 0) (hunsat : sat A t = false) :
    ∃ δ : Nat → F, (∀ j, draws t ≤ j → δ j = 0) ∧
      ∀ row ∈ shareRows (F := F) p t, row.2.1 ∈ A → row.2.2 1 δ = 0 := by
  obtain ⟨δ0, hδ0⟩ := emit_hide (F := F) A t hchar hpos hunsat 1 0
  let δ : Nat → F := fun j => if j < draws t then δ0 j else 0
  have hδ : ∀ p ∈ emit δ t 1 0, p.1.label ∈ A → p.2 = 0 := by
    rw [emit_congr t δ δ0 1 0 (by intro i _ hi; simp only [δ]; rw [if_pos (by omega)])]
    exact hδ0
  refine ⟨δ, fun j hj => by simp only [δ]; rw [if_neg (by omega)], ?_⟩
  intro row hrow hA
  rcases SMap.mem_addRows _ _ _ hrow with h | h
  · obtain ⟨x, hx, rfl⟩ := List.mem_map.mp h
    have hm : (x.1, x.2 1 δ) ∈ emit δ t 1 0 := by
      rw [← emitFn_eval]
      exact List.mem_map.mpr ⟨x, hx, rfl⟩
    exact hδ _ hm hA
  · simp at h

/-- Shares are additive. -/
theorem add_rows (p : Policy) (t : TNode) : ∀ row ∈ shareRows (F := F) p t, ∀ s d (tape δ : Nat → F),
    row.2.2 (s + d) (fun i => tape i + δ i) = row.2.2 s tape + row.2.2 d δ := by
  intro row hrow s d tape δ
  rcases SMap.mem_addRows _ _ _ hrow with h | h
  · obtain ⟨x, hx, rfl⟩ := List.mem_map.mp h
    obtain ⟨⟨l, i⟩, hx, rfl⟩ := List.mem_map.mp hx
    simp only
    rw [emit_add]
    have hl : (emit tape t s 0).length = (emit δ t d 0).length := by
      have := congrArg List.length ((emit_fst tape t s 0).trans (emit_fst δ t d 0).symm)
      simpa using this
    rw [List.getElem?_zipWith]
    by_cases hi : i < (emit tape t s 0).length
    · rw [List.getElem?_eq_getElem hi, List.getElem?_eq_getElem (hl ▸ hi)]
      rfl
    · rw [List.getElem?_eq_none (by omega), List.getElem?_eq_none (by omega)]
      simp
  · simp at h

theorem zero_rows (p : Policy) (t : TNode) :
    ∀ row ∈ shareRows (F := F) p t, row.2.2 0 (fun _ => 0) = 0 := by
  intro row hrow
  rcases SMap.mem_addRows _ _ _ hrow with h | h
  · obtain ⟨x, hx, rfl⟩ := List.mem_map.mp h
    have hm : (x.1, x.2 0 fun _ => 0) ∈ emit (fun _ => (0 : F)) t 0 0 := by
      rw [← emitFn_eval]
      exact List.mem_map.mpr ⟨x, hx, rfl⟩
    exact emit_zero t 0 _ hm
  · simp at h

end skel

namespace Scheme
variable {G1 G2 GT : Type} {q : Nat} [Fact q.Prime]
variable [AddCommGroup G1] [Module (ZMod q) G1] [AddCommGroup G2] [Module (ZMod q) G2] [AddCommGroup GT]
  [Module (ZMod q) GT]

/-! ### Exponents -/

/-- A function of the coins. -/
abbrev Fn (q : Nat) := Coins q → ZMod q

/-- The exponents of the elements at all places, as functions of the coins. -/
structure Expo (q : Nat) where
  u : Src → Fn q
  v : Loc → Fn q
  w : Loc → Fn q

/-- The elements seen with coins `c` have these exponents. -/
def Expo.Of (x : Expo q) (g : Game G1 G2 GT) (c : Coins q) (v : Views G1 G2 GT) : Prop :=
  (∀ s, v.src s = x.u s c • g.g1) ∧ (∀ l, asG2 (v.at l) = x.v l c • g.g2) ∧
    (∀ l, asGT (v.at l) = x.w l c • g.env.e g.g1 g.g2)

/-- The exponent of the attack's output. -/
def Attack.expo (A : Attack q) (x : Expo q) : Fn q :=
  (A.pairs.map fun t => t.1 • (x.u t.2.1 * x.v t.2.2)).sum + (A.targets.map fun t => t.1 • x.w t.2).sum

theorem run_expo {g : Game G1 G2 GT} (hb : Bilinear q g.env.e) (A : Attack q) {x : Expo q} {c : Coins q}
    {v : Views G1 G2 GT} (h : x.Of g c v) : A.run g.env.e v = A.expo x c • g.env.e g.g1 g.g2 := by
  obtain ⟨h1, h2, h3⟩ := h
  unfold Attack.run Attack.expo
  rw [Pi.add_apply, add_smul]
  congr 1
  · induction A.pairs with
    | nil => simp
    | cons t l ih =>
      simp only [List.map_cons, List.sum_cons, ih, Pi.add_apply, add_smul, h1 t.2.1, h2 t.2.2, hb.smul_left,
        hb.smul_right, Pi.smul_apply, Pi.mul_apply, smul_eq_mul, mul_smul]
  · induction A.targets with
    | nil => simp
    | cons t l ih =>
      simp only [List.map_cons, List.sum_cons, ih, Pi.add_apply, add_smul, h3 t.2, Pi.smul_apply, smul_eq_mul, mul_smul]

/-- A functional that kills all products and all target exponents kills the attack. -/
theorem expo_vanish (A : Attack q) (x : Expo q) (Λ : Fn q →ₗ[ZMod q] ZMod q)
    (hp : ∀ s m, Λ (x.u s * x.v m) = 0) (ht : ∀ m, Λ (x.w m) = 0) : Λ (A.expo x) = 0 := by
  unfold Attack.expo
  rw [map_add]
  have h1 : Λ ((A.pairs.map fun t => t.1 • (x.u t.2.1 * x.v t.2.2)).sum) = 0 := by
    induction A.pairs with
    | nil => simp
    | cons t l ih => simp [map_add, ih, hp]
  have h2 : Λ ((A.targets.map fun t => t.1 • x.w t.2).sum) = 0 := by
    induction A.targets with
    | nil => simp
    | cons t l ih => simp [map_add, ih, ht]
  rw [h1, h2, add_zero]

/-- The value at given coins. -/
def at_ (c : Coins q) : Fn q →ₗ[ZMod q] ZMod q := LinearMap.proj c

theorem at_apply (c : Coins q) (f : Fn q) : at_ c f = f c := rfl

/-- No coins. -/
def zeroCoins : Coins q := ⟨0, 0, 0, fun _ _ => 0, fun _ _ => 0, fun _ => 0, fun _ => 0⟩

/-! ### Ciphertext-policy -/

/-- A row as the algebra sees it: the digest of its attribute and its share. -/
abbrev Row (q : Nat) := Bytes × ShareFn (ZMod q)

/-- Exponents of elements of the first group. -/
inductive CpU (rows : List (Row q)) (digs : List (List Bytes)) : Fn q → Prop
  | zero : CpU rows digs fun _ => 0
  | one : CpU rows digs fun _ => 1
  | a : CpU rows digs fun c => c.a
  | s : CpU rows digs fun c => c.s
  | hash (d : Bytes) : CpU rows digs fun c => c.h d
  | c (i : Nat) (row : Row q) : rows[i]? = some row →
      CpU rows digs fun c => row.2 c.s (c.tape 0) * c.a - c.r 0 i * c.h row.1
  | kx (k : Nat) (ds : List Bytes) (d : Bytes) : digs[k]? = some ds → d ∈ ds → CpU rows digs fun c => c.t k * c.h d

/-- Exponents of elements of the second group. -/
inductive CpV (rows : List (Row q)) (digs : List (List Bytes)) : Fn q → Prop
  | zero : CpV rows digs fun _ => 0
  | one : CpV rows digs fun _ => 1
  | K (k : Nat) : k < digs.length → CpV rows digs fun c => c.alpha + c.t k * c.a
  | L (k : Nat) : k < digs.length → CpV rows digs fun c => c.t k
  | D (i : Nat) : i < rows.length → CpV rows digs fun c => c.r 0 i

/-- Mixed difference in `alpha` and `s`. -/
def cpD1 : Fn q →ₗ[ZMod q] ZMod q :=
  at_ { zeroCoins with alpha := 1, s := 1 } - at_ { zeroCoins with alpha := 1 } - at_ { zeroCoins with s := 1 }
    + at_ zeroCoins

/-- The coins of the second difference. -/
def cpC2 (δ : Nat → ZMod q) (k : Nat) (a t σ : ZMod q) : Coins q :=
  { zeroCoins with a := a, s := σ, tape := fun i j => if i = 0 then σ * δ j else 0, t := fun k' => if k' = k then t else 0 }

/-- Mixed difference in `t k` and the sharing, odd in `a`. -/
def cpD2 (δ : Nat → ZMod q) (k : Nat) : Fn q →ₗ[ZMod q] ZMod q :=
  (2 : ZMod q)⁻¹ • ((at_ (cpC2 δ k 1 1 1) - at_ (cpC2 δ k 1 1 0) - at_ (cpC2 δ k 1 0 1) + at_ (cpC2 δ k 1 0 0))
    - (at_ (cpC2 δ k (-1) 1 1) - at_ (cpC2 δ k (-1) 1 0) - at_ (cpC2 δ k (-1) 0 1) + at_ (cpC2 δ k (-1) 0 0)))

/-- The coins of the third difference. -/
def cpC3 (k i : Nat) (d : Bytes) (r t h : ZMod q) : Coins q :=
  { zeroCoins with
    r := fun i0 i' => if i0 = 0 ∧ i' = i then r else 0
    t := fun k' => if k' = k then t else 0
    h := fun d' => if d' = d then h else 0 }

/-- Mixed difference in `r i`, `t k` and `h d`. -/
def cpD3 (k i : Nat) (d : Bytes) : Fn q →ₗ[ZMod q] ZMod q :=
  at_ (cpC3 k i d 1 1 1) - at_ (cpC3 k i d 1 1 0) - at_ (cpC3 k i d 1 0 1) - at_ (cpC3 k i d 0 1 1)
    + at_ (cpC3 k i d 1 0 0) + at_ (cpC3 k i d 0 1 0) + at_ (cpC3 k i d 0 0 1) - at_ (cpC3 k i d 0 0 0)

/-- The functional for sharings `δ k` of one. -/
def cpΛ (rows : List (Row q)) (δ : Nat → Nat → ZMod q) (n : Nat) : Fn q →ₗ[ZMod q] ZMod q :=
  cpD1 - ∑ k ∈ Finset.range n, (cpD2 (δ k) k +
    ∑ i : Fin rows.length, (rows[i].2 1 (δ k)) • cpD3 k i rows[i].1)

theorem half_two (h2 : (2 : ZMod q) ≠ 0) : (2 : ZMod q)⁻¹ * 2 = 1 := inv_mul_cancel₀ h2

section cpvanish
variable {rows : List (Row q)} {digs : List (List Bytes)} {δ : Nat → Nat → ZMod q}
  (h0 : ∀ row ∈ rows, row.2 0 (fun _ => 0) = 0)

theorem cpD2_sK (δ : Nat → ZMod q) (k' k : Nat) (h2 : (2 : ZMod q) ≠ 0) :
    cpD2 δ k' ((fun c => c.s) * fun c => c.alpha + c.t k * c.a) = if k' = k then 1 else 0 := by
  simp only [cpD2, LinearMap.smul_apply, LinearMap.sub_apply, LinearMap.add_apply, at_apply, Pi.mul_apply, cpC2,
    zeroCoins, smul_eq_mul]
  by_cases h : k = k'
  · subst h
    simp only [if_true]
    calc _ = (2 : ZMod q)⁻¹ * 2 := by ring
      _ = _ := half_two h2
  · simp only [if_neg h, if_neg (Ne.symm h)]; ring

theorem cpD3_sK (k' i' : Nat) (d : Bytes) (k : Nat) :
    cpD3 (q := q) k' i' d ((fun c => c.s) * fun c => c.alpha + c.t k * c.a) = 0 := by
  simp [cpD3, at_apply, cpC3, zeroCoins]

theorem cpD2_cL (δ : Nat → ZMod q) (k' k i : Nat) (row : Row q) (h2 : (2 : ZMod q) ≠ 0)
    (h0 : row.2 0 (fun _ => 0) = 0) :
    cpD2 δ k' ((fun c => row.2 c.s (c.tape 0) * c.a - c.r 0 i * c.h row.1) * fun c => c.t k) =
      if k' = k then row.2 1 δ else 0 := by
  simp only [cpD2, LinearMap.smul_apply, LinearMap.sub_apply, LinearMap.add_apply, at_apply, Pi.mul_apply, cpC2,
    zeroCoins, smul_eq_mul, zero_mul, one_mul, if_true, h0]
  by_cases h : k = k'
  · subst h
    simp only [if_true]
    have := half_two h2
    calc _ = ((2 : ZMod q)⁻¹ * 2) * row.2 1 δ := by ring
      _ = _ := by rw [this, one_mul]
  · simp only [if_neg h, if_neg (Ne.symm h)]; ring

theorem cpD3_cL (k' i' k i : Nat) (d : Bytes) (row : Row q) (hd : i' = i → d = row.1) :
    cpD3 k' i' d ((fun c => row.2 c.s (c.tape 0) * c.a - c.r 0 i * c.h row.1) * fun c => c.t k) =
      if k' = k ∧ i' = i then -1 else 0 := by
  simp only [cpD3, LinearMap.smul_apply, LinearMap.sub_apply, LinearMap.add_apply, at_apply, Pi.mul_apply, cpC3,
    zeroCoins]
  by_cases h : k = k'
  · subst h
    by_cases h' : i = i'
    · subst h'
      rw [hd rfl]
      simp
    · simp [h', Ne.symm h']
  · simp [h, Ne.symm h]

theorem cpD3_kD (k' i' k i : Nat) (d' d : Bytes) :
    cpD3 (q := q) k' i' d' ((fun c => c.t k * c.h d) * fun c => c.r 0 i) =
      if k' = k ∧ i' = i ∧ d = d' then 1 else 0 := by
  simp only [cpD3, LinearMap.smul_apply, LinearMap.sub_apply, LinearMap.add_apply, at_apply, Pi.mul_apply, cpC3,
    zeroCoins]
  by_cases h : k = k'
  · subst h
    by_cases h' : i = i'
    · subst h'
      by_cases h'' : d = d'
      · subst h''; simp
      · simp [h'']
    · simp [h', Ne.symm h']
  · simp [h, Ne.symm h]

theorem cpΛ_apply (f : Fn q) (n : Nat) : cpΛ rows δ n f = cpD1 f - ∑ k ∈ Finset.range n, (cpD2 (δ k) k f +
    ∑ i : Fin rows.length, (rows[i].2 1 (δ k)) * cpD3 k i rows[i].1 f) := by
  simp [cpΛ, LinearMap.sum_apply]

theorem cpΛ_zero {f : Fn q} {n : Nat} (h1 : cpD1 f = 0) (h2 : ∀ k, cpD2 (δ k) k f = 0)
    (h3 : ∀ k i d, cpD3 k i d f = 0) : cpΛ rows δ n f = 0 := by
  rw [cpΛ_apply, h1]
  simp [h2, h3]

/-- It only looks at coins with finite support. -/
theorem cpΛ_congr {n : Nat} {f : Fn q} (h1 : f { zeroCoins with alpha := 1, s := 1 } = 0)
    (h2 : f { zeroCoins with alpha := 1 } = 0) (h3 : f { zeroCoins with s := 1 } = 0) (h4 : f zeroCoins = 0)
    (h5 : ∀ k < n, ∀ a t σ, f (cpC2 (δ k) k a t σ) = 0)
    (h6 : ∀ k < n, ∀ i : Fin rows.length, ∀ r t h, f (cpC3 k i rows[i].1 r t h) = 0) : cpΛ rows δ n f = 0 := by
  rw [cpΛ_apply, Finset.sum_eq_zero]
  · simp [cpD1, at_apply, h1, h2, h3, h4]
  · intro k hk
    rw [Finset.mem_range] at hk
    rw [Finset.sum_eq_zero]
    · simp [cpD2, at_apply, h5 k hk]
    · intro i _
      have := h6 k hk i
      simp only [Fin.getElem_fin] at this
      simp [cpD3, at_apply, this]

/-- The functional kills every product. -/
theorem cpΛ_mul (h2 : (2 : ZMod q) ≠ 0) (h0 : ∀ row ∈ rows, row.2 0 (fun _ => 0) = 0)
    (hδ : ∀ k ds, digs[k]? = some ds → ∀ row ∈ rows, row.1 ∈ ds → row.2 1 (δ k) = 0)
    {u v : Fn q} (hu : CpU rows digs u) (hv : CpV rows digs v) : cpΛ rows δ digs.length (u * v) = 0 := by
  have hrow : ∀ {i : Nat} {row : Row q}, rows[i]? = some row → row.2 0 (fun _ => 0) = 0 :=
    fun h => h0 _ (List.mem_of_getElem? h)
  by_cases hc : (∃ k, k < digs.length ∧ u = (fun c => c.s) ∧ v = fun c => c.alpha + c.t k * c.a) ∨
      (∃ k i row, k < digs.length ∧ rows[i]? = some row ∧
        u = (fun c => row.2 c.s (c.tape 0) * c.a - c.r 0 i * c.h row.1) ∧ v = fun c => c.t k) ∨
      (∃ k i ds d, i < rows.length ∧ digs[k]? = some ds ∧ d ∈ ds ∧ u = (fun c => c.t k * c.h d) ∧ v = fun c => c.r 0 i)
  · rcases hc with ⟨k, hk, rfl, rfl⟩ | ⟨k, i, row, hk, hi, rfl, rfl⟩ | ⟨k, i, ds, d, hi, hk, hd, rfl, rfl⟩
    · rw [cpΛ_apply]
      simp only [cpD2_sK _ _ _ h2, cpD3_sK, mul_zero, Finset.sum_const_zero, add_zero, Finset.sum_ite_eq',
        Finset.mem_range, hk, if_true]
      simp [cpD1, at_apply, zeroCoins]
    · have hil : i < rows.length := (List.getElem?_eq_some_iff.mp hi).1
      have hie : rows[i] = row := (List.getElem?_eq_some_iff.mp hi).2
      rw [cpΛ_apply]
      have e : ∀ (k' : Nat) (i' : Fin rows.length), (rows[i'].2 1 (δ k')) * cpD3 k' i' rows[i'].1
          ((fun c => row.2 c.s (c.tape 0) * c.a - c.r 0 i * c.h row.1) * fun c => c.t k) =
          if i' = ⟨i, hil⟩ then (if k' = k then -(row.2 1 (δ k')) else 0) else 0 := by
        intro k' i'
        rw [cpD3_cL _ _ _ _ _ _ (by intro h; subst h; simp [hie])]
        by_cases hii : i' = ⟨i, hil⟩
        · subst hii
          simp only [if_true, and_true, Fin.getElem_fin, hie]
          split <;> simp
        · have : (i' : Nat) ≠ i := fun h => hii (Fin.ext h)
          simp [hii, this]
      simp only [e, cpD2_cL _ _ _ _ _ h2 (hrow hi), Finset.sum_ite_eq', Finset.mem_univ, if_true]
      rw [Finset.sum_eq_zero]
      · simp [cpD1, at_apply, zeroCoins]
      · intro k' _
        split <;> simp
    · rw [cpΛ_apply]
      have e : ∀ (k' : Nat) (i' : Fin rows.length), (rows[i'].2 1 (δ k')) * cpD3 k' i' rows[i'].1
          ((fun c => c.t k * c.h d) * fun c => c.r 0 i) = 0 := by
        intro k' i'
        rw [cpD3_kD]
        split
        · rename_i h
          obtain ⟨rfl, -, rfl⟩ := h
          rw [hδ _ ds hk rows[i'] (by simp) hd, zero_mul]
        · rw [mul_zero]
      simp only [e, Finset.sum_const_zero, add_zero]
      simp [cpD1, cpD2, cpC2, at_apply, zeroCoins]
  · simp only [not_or, not_exists, not_and] at hc
    obtain ⟨c1, c2, c3⟩ := hc
    cases hu with
    | zero => exact (congrArg _ (by funext c; simp)).trans (map_zero _)
    | one => cases hv <;> apply cpΛ_zero <;> intros <;> simp [cpD1, cpD2, cpD3, cpC2, cpC3, at_apply, zeroCoins]
    | a => cases hv <;> apply cpΛ_zero <;> intros <;> simp [cpD1, cpD2, cpD3, cpC2, cpC3, at_apply, zeroCoins]
    | s => cases hv with
      | K k hk => exact absurd rfl (c1 k hk rfl)
      | _ => apply cpΛ_zero <;> intros <;> simp [cpD1, cpD2, cpD3, cpC2, cpC3, at_apply, zeroCoins]
    | hash d =>
      cases hv <;> apply cpΛ_zero <;> intros <;> simp [cpD1, cpD2, cpD3, cpC2, cpC3, at_apply, zeroCoins]
    | c i row hi => cases hv with
      | L k hk => exact absurd rfl (c2 k i row hk hi rfl)
      | K k hk =>
        apply cpΛ_zero <;> intros <;> simp [cpD1, cpD2, cpD3, cpC2, cpC3, at_apply, zeroCoins, hrow hi]
        right
        split <;> ring
      | _ =>
        apply cpΛ_zero <;> intros <;> simp [cpD1, cpD2, cpD3, cpC2, cpC3, at_apply, zeroCoins, hrow hi]
    | kx k ds d hk hd => cases hv with
      | D i hi => exact absurd rfl (c3 k i ds d hi hk hd rfl)
      | _ => apply cpΛ_zero <;> intros <;> simp [cpD1, cpD2, cpD3, cpC2, cpC3, at_apply, zeroCoins]

/-- It does not kill the secret. -/
theorem cpΛ_secret (n : Nat) : cpΛ rows δ n (fun c : Coins q => c.s * c.alpha) = 1 := by
  rw [cpΛ_apply]
  simp [cpD1, cpD2, cpD3, cpC2, cpC3, at_apply, zeroCoins]

theorem cpΛ_target (n : Nat) : cpΛ rows δ n (fun c : Coins q => c.alpha) = 0 := by
  rw [cpΛ_apply]
  simp [cpD1, cpD2, cpD3, cpC2, cpC3, at_apply, zeroCoins]

end cpvanish

/-! ### Key-policy -/

/-- Exponents of elements of the first group. -/
inductive KpU (keys : List (List (Row q))) (digs : List Bytes) : Fn q → Prop
  | zero : KpU keys digs fun _ => 0
  | one : KpU keys digs fun _ => 1
  | hash (d : Bytes) : KpU keys digs fun c => c.h d
  | D (k i : Nat) (rows : List (Row q)) (row : Row q) : keys[k]? = some rows → rows[i]? = some row →
      KpU keys digs fun c => row.2 c.alpha (c.tape k) + c.r k i * c.h row.1
  | cx (d : Bytes) : d ∈ digs → KpU keys digs fun c => c.s * c.h d

/-- Exponents of elements of the second group. -/
inductive KpV (keys : List (List (Row q))) : Fn q → Prop
  | zero : KpV keys fun _ => 0
  | one : KpV keys fun _ => 1
  | s : KpV keys fun c => c.s
  | d (k i : Nat) : KpV keys fun c => c.r k i

/-- The coins of the first difference. -/
def kpC1 (δ : Nat → Nat → ZMod q) (s σ : ZMod q) : Coins q :=
  { zeroCoins with alpha := σ, s := s, tape := fun k j => σ * δ k j }

/-- Mixed difference in `s` and the sharings. -/
def kpD1 (δ : Nat → Nat → ZMod q) : Fn q →ₗ[ZMod q] ZMod q :=
  at_ (kpC1 δ 1 1) - at_ (kpC1 δ 1 0) - at_ (kpC1 δ 0 1) + at_ (kpC1 δ 0 0)

/-- The coins of the second difference. -/
def kpC3 (k i : Nat) (d : Bytes) (r s h : ZMod q) : Coins q :=
  { zeroCoins with
    s := s
    r := fun k' i' => if k' = k ∧ i' = i then r else 0
    h := fun d' => if d' = d then h else 0 }

/-- Mixed difference in `r k i`, `s` and `h d`. -/
def kpD3 (k i : Nat) (d : Bytes) : Fn q →ₗ[ZMod q] ZMod q :=
  at_ (kpC3 k i d 1 1 1) - at_ (kpC3 k i d 1 1 0) - at_ (kpC3 k i d 1 0 1) - at_ (kpC3 k i d 0 1 1)
    + at_ (kpC3 k i d 1 0 0) + at_ (kpC3 k i d 0 1 0) + at_ (kpC3 k i d 0 0 1) - at_ (kpC3 k i d 0 0 0)

/-- The functional for sharings `δ k` of one. -/
def kpΛ (keys : List (List (Row q))) (δ : Nat → Nat → ZMod q) : Fn q →ₗ[ZMod q] ZMod q :=
  kpD1 δ - ∑ k : Fin keys.length, ∑ i : Fin keys[k].length, (keys[k][i].2 1 (δ k)) • kpD3 k i keys[k][i].1

section kpvanish
variable {keys : List (List (Row q))} {digs : List Bytes} {δ : Nat → Nat → ZMod q}

theorem kpΛ_apply (f : Fn q) : kpΛ keys δ f = kpD1 δ f -
    ∑ k : Fin keys.length, ∑ i : Fin keys[k].length, (keys[k][i].2 1 (δ k)) * kpD3 k i keys[k][i].1 f := by
  simp [kpΛ, LinearMap.sum_apply]

theorem kpΛ_zero {f : Fn q} (h1 : kpD1 δ f = 0) (h3 : ∀ k i d, kpD3 k i d f = 0) : kpΛ keys δ f = 0 := by
  rw [kpΛ_apply, h1]
  simp [h3]

theorem kpΛ_congr {f : Fn q} (h1 : ∀ s σ, f (kpC1 δ s σ) = 0)
    (h3 : ∀ (k : Fin keys.length) (i : Fin keys[k].length), ∀ r s h, f (kpC3 k i keys[k][i].1 r s h) = 0) :
    kpΛ keys δ f = 0 := by
  rw [kpΛ_apply, Finset.sum_eq_zero]
  · simp [kpD1, at_apply, h1]
  · intro k _
    apply Finset.sum_eq_zero
    intro i _
    have := h3 k i
    simp only [Fin.getElem_fin] at this
    simp [kpD3, at_apply, this]

theorem kpD3_Ds (k' i' k i : Nat) (d : Bytes) (row : Row q) (hd : k' = k → i' = i → d = row.1)
    (h0 : row.2 0 (fun _ => 0) = 0) :
    kpD3 k' i' d ((fun c => row.2 c.alpha (c.tape k) + c.r k i * c.h row.1) * fun c => c.s) =
      if k' = k ∧ i' = i then 1 else 0 := by
  simp only [kpD3, LinearMap.smul_apply, LinearMap.sub_apply, LinearMap.add_apply, at_apply, Pi.mul_apply, kpC3,
    zeroCoins, h0]
  by_cases h : k = k' ∧ i = i'
  · obtain ⟨rfl, rfl⟩ := h
    rw [hd rfl rfl]
    simp
  · have h' : ¬ (k' = k ∧ i' = i) := fun x => h ⟨x.1.symm, x.2.symm⟩
    simp [h, h']

theorem kpD1_Ds (k i : Nat) (row : Row q) (h0 : row.2 0 (fun _ => 0) = 0) :
    kpD1 δ ((fun c => row.2 c.alpha (c.tape k) + c.r k i * c.h row.1) * fun c => c.s) = row.2 1 (δ k) := by
  simp [kpD1, at_apply, kpC1, zeroCoins, h0]

theorem kpD3_cd (k' i' k i : Nat) (d' d : Bytes) :
    kpD3 (q := q) k' i' d' ((fun c => c.s * c.h d) * fun c => c.r k i) =
      if k' = k ∧ i' = i ∧ d = d' then 1 else 0 := by
  simp only [kpD3, LinearMap.smul_apply, LinearMap.sub_apply, LinearMap.add_apply, at_apply, Pi.mul_apply, kpC3,
    zeroCoins]
  by_cases h : k = k' ∧ i = i'
  · obtain ⟨rfl, rfl⟩ := h
    by_cases h'' : d = d'
    · subst h''; simp
    · simp [h'']
  · have h' : ¬ (k' = k ∧ i' = i ∧ d = d') := fun x => h ⟨x.1.symm, x.2.1.symm⟩
    simp [h, h']

/-- The functional kills every product. -/
theorem kpΛ_mul (h0 : ∀ rows ∈ keys, ∀ row ∈ rows, row.2 0 (fun _ => 0) = 0)
    (hδ : ∀ (k : Nat) (rows : List (Row q)), keys[k]? = some rows → ∀ row ∈ rows, row.1 ∈ digs → row.2 1 (δ k) = 0)
    {u v : Fn q} (hu : KpU keys digs u) (hv : KpV keys v) : kpΛ keys δ (u * v) = 0 := by
  cases hu with
  | zero => exact (congrArg _ (by funext c; simp)).trans (map_zero _)
  | one => cases hv <;> apply kpΛ_zero <;> intros <;> simp [kpD1, kpD3, kpC1, kpC3, at_apply, zeroCoins]
  | hash d => cases hv <;> apply kpΛ_zero <;> intros <;> simp [kpD1, kpD3, kpC1, kpC3, at_apply, zeroCoins]
  | D k i rows row hk hi =>
    have hrow : row.2 0 (fun _ => 0) = 0 := h0 rows (List.mem_of_getElem? hk) row (List.mem_of_getElem? hi)
    cases hv with
    | s =>
      obtain ⟨hkl, rfl⟩ := List.getElem?_eq_some_iff.mp hk
      obtain ⟨hil, rfl⟩ := List.getElem?_eq_some_iff.mp hi
      rw [kpΛ_apply, kpD1_Ds _ _ _ hrow]
      have e : ∀ (k' : Fin keys.length) (i' : Fin keys[k'].length), (keys[k'][i'].2 1 (δ k')) *
          kpD3 k' i' keys[k'][i'].1 ((fun c => keys[k][i].2 c.alpha (c.tape k) + c.r k i * c.h keys[k][i].1) *
            fun c => c.s) = if (k' : Nat) = k ∧ (i' : Nat) = i then keys[k][i].2 1 (δ k) else 0 := by
        intro k' i'
        rw [kpD3_Ds _ _ _ _ _ _ (by
          intro h1 h2
          simp only [Fin.getElem_fin, h1, h2]) hrow]
        split
        · rename_i h
          rw [mul_one]
          simp only [Fin.getElem_fin, h.1, h.2]
        · rw [mul_zero]
      simp only [e]
      rw [Finset.sum_eq_single ⟨k, hkl⟩, Finset.sum_eq_single ⟨i, hil⟩]
      · simp
      · intro i' _ hne
        rw [if_neg (fun h => hne (Fin.ext h.2))]
      · simp
      · intro k' _ hne
        apply Finset.sum_eq_zero
        intro i' _
        rw [if_neg (fun h => hne (Fin.ext h.1))]
      · simp
    | _ => apply kpΛ_zero <;> intros <;> simp [kpD1, kpD3, kpC1, kpC3, at_apply, zeroCoins, hrow]
  | cx d hd =>
    cases hv with
    | d k i =>
      rw [kpΛ_apply]
      have e : ∀ (k' : Fin keys.length) (i' : Fin keys[k'].length), (keys[k'][i'].2 1 (δ k')) *
          kpD3 k' i' keys[k'][i'].1 ((fun c => c.s * c.h d) * fun c => c.r k i) = 0 := by
        intro k' i'
        rw [kpD3_cd]
        split
        · rename_i h
          obtain ⟨-, -, rfl⟩ := h
          rw [hδ k' keys[k'] (by simp) keys[k'][i'] (by simp) hd, zero_mul]
        · rw [mul_zero]
      simp only [e, Finset.sum_const_zero]
      simp [kpD1, kpC1, at_apply, zeroCoins]
    | _ => apply kpΛ_zero <;> intros <;> simp [kpD1, kpD3, kpC1, kpC3, at_apply, zeroCoins]

/-- It does not kill the secret. -/
theorem kpΛ_secret : kpΛ keys δ (fun c : Coins q => c.s * c.alpha) = 1 := by
  rw [kpΛ_apply]
  simp [kpD1, kpD3, kpC1, kpC3, at_apply, zeroCoins]

theorem kpΛ_target : kpΛ keys δ (fun c : Coins q => c.alpha) = 0 := by
  rw [kpΛ_apply]
  simp [kpD1, kpD3, kpC1, kpC3, at_apply, zeroCoins]

end kpvanish

end Scheme
end Abe
