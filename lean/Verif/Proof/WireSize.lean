import Verif.Proof.CallStack
import Verif.Proof.Compact
import Verif.Proof.Wire
import Verif.Spec.WireSize
/-! # C128: sizes of keys and ciphertexts on the wire, lemmas -/
set_option linter.unusedSimpArgs false
set_option linter.unusedSectionVars false
set_option autoImplicit false
namespace Abe
open Scheme

section
variable {G1 G2 GT : Type} {cd : Codec G1 G2 GT}

theorem smartPack_le (this buf : Bytes) : (BS.smartPack this buf).length ≤ this.length + buf.length + 5 := by
  unfold BS.smartPack
  split
  · simp [BS.be32]; omega
  · split
    · simp [BS.be16]; omega
    · split
      · simp; omega
      · simp

/-- Bytes of a component, 0 if it cannot be written. -/
def objBytes (cd : Codec G1 G2 GT) (o : Obj G1 G2 GT) : Nat :=
  match o.serialize cd with
  | .ok b => b.length
  | _ => 0

/-- Bytes of a container, rounded up. -/
def contBytes (cd : Codec G1 G2 GT) : Container G1 G2 GT → Nat
  | [] => 0
  | (k, o) :: c => k.length + objBytes cd o + 10 + contBytes cd c

theorem serialize_le : ∀ (c : Container G1 G2 GT) (b : Bytes), Container.serialize cd c = .ok b → b.length ≤ contBytes cd c
  | [], b, h => by
    simp only [Container.serialize] at h
    cases h
    simp
  | (k, o) :: c, b, h => by
    simp only [Container.serialize] at h
    obtain ⟨x, hx, h⟩ := (Res.bind_eq_ok _ _ _).mp h
    obtain ⟨y, hy, h⟩ := (Res.bind_eq_ok _ _ _).mp h
    cases h
    have := serialize_le c y hy
    have h1 := smartPack_le (BS.smartPack [] k) x
    have h2 := smartPack_le [] k
    simp only [contBytes, objBytes, hx, List.length_append, List.length_nil] at *
    omega

theorem insert_bytes (k : Bytes) (o : Obj G1 G2 GT) : ∀ c : Container G1 G2 GT,
    contBytes cd (SMap.insert k o c) ≤ contBytes cd c + (k.length + objBytes cd o + 10)
  | [] => by simp [SMap.insert, contBytes]
  | (k', o') :: c => by
    simp only [SMap.insert]
    split
    · simp only [contBytes]; omega
    · split
      · simp only [contBytes]; omega
      · have := insert_bytes k o c
        simp only [contBytes]; omega

theorem set_bytes {c d : Container G1 G2 GT} {k : Bytes} {o : Obj G1 G2 GT} (h : Container.setComponent c k o = .ok d) :
    contBytes cd d ≤ contBytes cd c + (k.length + objBytes cd o + 10) := by
  simp only [Container.setComponent] at h
  obtain ⟨x, hx, h⟩ := (Res.bind_eq_ok _ _ _).mp h
  cases h
  have h1 : objBytes cd x ≤ objBytes cd o := by
    cases o <;> simp only [Obj.clone] at hx <;> cases hx <;> exact Nat.le_refl _
  have h2 := insert_bytes (cd := cd) k x c
  omega

theorem g1_bytes {n : Nat} (h : ElementBytes cd n) (x : G1) : objBytes cd (.g1 x : Obj G1 G2 GT) ≤ n + 6 := by
  have h1 := smartPack_le [0xB2] (cd.w1 x)
  have h2 := h.b1 x
  simp only [objBytes, Obj.serialize, groupSerialize, List.length_cons, List.length_nil] at *
  omega

theorem g2_bytes {n : Nat} (h : ElementBytes cd n) (x : G2) : objBytes cd (.g2 x : Obj G1 G2 GT) ≤ n + 6 := by
  have h1 := smartPack_le [0xB3] (cd.w2 x)
  have h2 := h.b2 x
  simp only [objBytes, Obj.serialize, groupSerialize, List.length_cons, List.length_nil] at *
  omega

theorem gt_bytes {n : Nat} (h : ElementBytes cd n) (x : GT) : objBytes cd (.gt x : Obj G1 G2 GT) ≤ n + 6 := by
  have h1 := smartPack_le [0xB4] (cd.wT x)
  have h2 := h.bT x
  simp only [objBytes, Obj.serialize, groupSerialize, List.length_cons, List.length_nil] at *
  omega

theorem zp_bytes {n v : Nat} (h : ElementBytes cd n) (hv : v ≤ cd.order) : objBytes cd (.zp v : Obj G1 G2 GT) ≤ n + 6 := by
  have h2 := h.bZ v hv
  simp only [objBytes, Obj.serialize, zpSerialize, List.length_cons, List.length_append, BS.be16, List.length_nil] at *
  omega

theorem bytes_bytes (b : Bytes) : objBytes cd (.bytes b : Obj G1 G2 GT) = b.length + 5 := by
  simp [objBytes, Obj.serialize, BS.serialize, BS.be32]

theorem attrs_bytes (l : AttrList) : objBytes cd (.attrs l : Obj G1 G2 GT) = l.compact.length := rfl

theorem toLowerHex_length (b : Bytes) : (BS.toLowerHex b).length = 2 * b.length := by
  simp [BS.toLowerHex, List.length_flatMap]
  try omega

theorem hashKey_length (md : Bytes → Bytes) (a : Bytes) : (hashKey md a).length ≤ 16 := by
  unfold hashKey
  split
  · rw [toLowerHex_length]
    have : ((md a).take 8).length ≤ 8 := by simp
    omega
  · omega
end

section
variable {q : Nat} [Fact q.Prime] {G1 G2 GT : Type} [AddCommGroup G1] [Module (ZMod q) G1] [AddCommGroup G2] [Module (ZMod q) G2]
  [AddCommGroup GT] [Module (ZMod q) GT] {cd : Codec G1 G2 GT} {n : Nat}

theorem cpParams_bytes (hn : ElementBytes cd n) (ho : cd.order = q) {env : Env G1 G2 GT} {r : ParamRand q G1 G2}
    {P M : Container G1 G2 GT} (h : cpParams env r = .ok (P, M)) :
    contBytes cd P ≤ 4 * n + 100 + r.k.length ∧ contBytes cd M ≤ 2 * n + 50 := by
  simp only [cpParams] at h
  obtain ⟨p1, h1, h⟩ := (Res.bind_eq_ok _ _ _).mp h
  obtain ⟨p2, h2, h⟩ := (Res.bind_eq_ok _ _ _).mp h
  obtain ⟨p3, h3, h⟩ := (Res.bind_eq_ok _ _ _).mp h
  obtain ⟨p4, h4, h⟩ := (Res.bind_eq_ok _ _ _).mp h
  obtain ⟨p5, h5, h⟩ := (Res.bind_eq_ok _ _ _).mp h
  obtain ⟨m1, k1, h⟩ := (Res.bind_eq_ok _ _ _).mp h
  obtain ⟨m2, k2, h⟩ := (Res.bind_eq_ok _ _ _).mp h
  cases h
  have a1 := set_bytes (cd := cd) h1
  have a2 := set_bytes (cd := cd) h2
  have a3 := set_bytes (cd := cd) h3
  have a4 := set_bytes (cd := cd) h4
  have a5 := set_bytes (cd := cd) h5
  have b1 := set_bytes (cd := cd) k1
  have b2 := set_bytes (cd := cd) k2
  have e1 := g1_bytes (GT := GT) (G2 := G2) hn r.g1
  have e2 := g2_bytes (GT := GT) (G1 := G1) hn r.g2
  have e3 := g1_bytes (GT := GT) (G2 := G2) hn (r.a • r.g1)
  have e4 := gt_bytes (G1 := G1) (G2 := G2) hn (r.alpha • env.e r.g1 r.g2)
  have e5 := bytes_bytes (cd := cd) r.k
  have e6 := zp_bytes (G1 := G1) (G2 := G2) (GT := GT) hn (v := r.alpha.val) (by rw [ho]; exact Nat.le_of_lt (ZMod.val_lt _))
  have e7 := g2_bytes (GT := GT) (G1 := G1) hn (r.a • r.g2)
  simp only [contBytes, List.length_cons, List.length_nil] at *
  omega

theorem kpParams_bytes (hn : ElementBytes cd n) (ho : cd.order = q) {env : Env G1 G2 GT} {r : ParamRand q G1 G2}
    {P M : Container G1 G2 GT} (h : kpParams env r = .ok (P, M)) :
    contBytes cd P ≤ 4 * n + 100 + r.k.length ∧ contBytes cd M ≤ 2 * n + 50 := by
  simp only [kpParams] at h
  obtain ⟨p1, h1, h⟩ := (Res.bind_eq_ok _ _ _).mp h
  obtain ⟨p2, h2, h⟩ := (Res.bind_eq_ok _ _ _).mp h
  obtain ⟨p4, h4, h⟩ := (Res.bind_eq_ok _ _ _).mp h
  obtain ⟨p5, h5, h⟩ := (Res.bind_eq_ok _ _ _).mp h
  obtain ⟨m1, k1, h⟩ := (Res.bind_eq_ok _ _ _).mp h
  cases h
  have a1 := set_bytes (cd := cd) h1
  have a2 := set_bytes (cd := cd) h2
  have a4 := set_bytes (cd := cd) h4
  have a5 := set_bytes (cd := cd) h5
  have b1 := set_bytes (cd := cd) k1
  have e1 := g1_bytes (GT := GT) (G2 := G2) hn r.g1
  have e2 := g2_bytes (GT := GT) (G1 := G1) hn r.g2
  have e4 := gt_bytes (G1 := G1) (G2 := G2) hn (r.alpha • env.e r.g1 r.g2)
  have e5 := bytes_bytes (cd := cd) r.k
  have e6 := zp_bytes (G1 := G1) (G2 := G2) (GT := GT) hn (v := r.alpha.val) (by rw [ho]; exact Nat.le_of_lt (ZMod.val_lt _))
  simp only [contBytes, List.length_cons, List.length_nil] at *
  omega

theorem label_length {env : Env G1 G2 GT} {base a : Bytes} (hb : base.length ≤ 2) :
    (elementLabel base (hashKey env.md a)).length ≤ 19 := by
  have := hashKey_length env.md a
  simp only [elementLabel, List.length_append, List.length_cons, List.length_nil]
  omega

theorem cpKeyLoop_bytes (hn : ElementBytes cd n) {env : Env G1 G2 GT} {k : Option Bytes} {t : ZMod q} :
    ∀ (as : List Bytes) (d d' : Container G1 G2 GT), cpKeyLoop env k t as d = .ok d' →
      contBytes cd d' ≤ contBytes cd d + as.length * (n + 35)
  | [], d, d', h => by
    simp only [cpKeyLoop] at h
    cases h
    simp
  | a :: as, d, d', h => by
    simp only [cpKeyLoop] at h
    obtain ⟨kb, _, h⟩ := (Res.bind_eq_ok _ _ _).mp h
    obtain ⟨d1, h1, h⟩ := (Res.bind_eq_ok _ _ _).mp h
    have ih := cpKeyLoop_bytes hn as d1 d' h
    have a1 := set_bytes (cd := cd) h1
    have e1 := g1_bytes (GT := GT) (G2 := G2) hn (t • hashToG1 env kb a)
    have l1 := label_length (env := env) (base := b!"KX") (a := a) (by decide)
    rw [List.length_cons, Nat.add_mul]
    omega

theorem kpEncLoop_bytes (hn : ElementBytes cd n) {env : Env G1 G2 GT} {k : Option Bytes} {t : ZMod q} :
    ∀ (as : List Bytes) (d d' : Container G1 G2 GT), kpEncLoop env k t as d = .ok d' →
      contBytes cd d' ≤ contBytes cd d + as.length * (n + 35)
  | [], d, d', h => by
    simp only [kpEncLoop] at h
    cases h
    simp
  | a :: as, d, d', h => by
    simp only [kpEncLoop] at h
    obtain ⟨kb, _, h⟩ := (Res.bind_eq_ok _ _ _).mp h
    obtain ⟨d1, h1, h⟩ := (Res.bind_eq_ok _ _ _).mp h
    have ih := kpEncLoop_bytes hn as d1 d' h
    have a1 := set_bytes (cd := cd) h1
    have e1 := g1_bytes (GT := GT) (G2 := G2) hn (t • hashToG1 env kb a)
    have l1 := label_length (env := env) (base := b!"C") (a := a) (by decide)
    rw [List.length_cons, Nat.add_mul]
    omega

theorem kpKeyLoop_bytes (hn : ElementBytes cd n) {env : Env G1 G2 GT} {mpk : Key G1 G2 GT} {k : Option Bytes} {r : Nat → ZMod q} :
    ∀ (i : Nat) (rows : List (Bytes × (Bytes × ZMod q))) (d d' : Container G1 G2 GT), kpKeyLoop env mpk k r i rows d = .ok d' →
      contBytes cd d' ≤ contBytes cd d + rows.length * (2 * (n + 35))
  | i, [], d, d', h => by
    simp only [kpKeyLoop] at h
    cases h
    simp
  | i, row :: rows, d, d', h => by
    simp only [kpKeyLoop] at h
    obtain ⟨o1, _, h⟩ := (Res.bind_eq_ok _ _ _).mp h
    obtain ⟨g1, _, h⟩ := (Res.bind_eq_ok _ _ _).mp h
    obtain ⟨kb, _, h⟩ := (Res.bind_eq_ok _ _ _).mp h
    obtain ⟨o2, _, h⟩ := (Res.bind_eq_ok _ _ _).mp h
    obtain ⟨g2, _, h⟩ := (Res.bind_eq_ok _ _ _).mp h
    obtain ⟨d1, h1, h⟩ := (Res.bind_eq_ok _ _ _).mp h
    obtain ⟨d2, h2, h⟩ := (Res.bind_eq_ok _ _ _).mp h
    have ih := kpKeyLoop_bytes hn _ rows d2 d' h
    have a1 := set_bytes (cd := cd) h1
    have a2 := set_bytes (cd := cd) h2
    have e1 := g1_bytes (GT := GT) (G2 := G2) hn (row.2.2 • g1 + r i • hashToG1 env kb row.2.1)
    have e2 := g2_bytes (GT := GT) (G1 := G1) hn (r i • g2)
    have l1 := label_length (env := env) (base := b!"D") (a := row.1) (by decide)
    have l2 := label_length (env := env) (base := b!"d") (a := row.1) (by decide)
    rw [List.length_cons, Nat.add_mul]
    omega

theorem cpEncLoop_bytes (hn : ElementBytes cd n) {env : Env G1 G2 GT} {mpk : Key G1 G2 GT} {k : Option Bytes} {r : Nat → ZMod q} :
    ∀ (i : Nat) (rows : List (Bytes × (Bytes × ZMod q))) (d d' : Container G1 G2 GT), cpEncLoop env mpk k r i rows d = .ok d' →
      contBytes cd d' ≤ contBytes cd d + rows.length * (2 * (n + 35))
  | i, [], d, d', h => by
    simp only [cpEncLoop] at h
    cases h
    simp
  | i, row :: rows, d, d', h => by
    simp only [cpEncLoop] at h
    obtain ⟨o2, _, h⟩ := (Res.bind_eq_ok _ _ _).mp h
    obtain ⟨g2, _, h⟩ := (Res.bind_eq_ok _ _ _).mp h
    obtain ⟨d1, h1, h⟩ := (Res.bind_eq_ok _ _ _).mp h
    obtain ⟨kb, _, h⟩ := (Res.bind_eq_ok _ _ _).mp h
    obtain ⟨o1, _, h⟩ := (Res.bind_eq_ok _ _ _).mp h
    obtain ⟨g1a, _, h⟩ := (Res.bind_eq_ok _ _ _).mp h
    obtain ⟨d2, h2, h⟩ := (Res.bind_eq_ok _ _ _).mp h
    have ih := cpEncLoop_bytes hn _ rows d2 d' h
    have a1 := set_bytes (cd := cd) h1
    have a2 := set_bytes (cd := cd) h2
    have e1 := g1_bytes (GT := GT) (G2 := G2) hn (row.2.2 • g1a + (-(r i)) • hashToG1 env kb row.2.1)
    have e2 := g2_bytes (GT := GT) (G1 := G1) hn (r i • g2)
    have l1 := label_length (env := env) (base := b!"D") (a := row.1) (by decide)
    have l2 := label_length (env := env) (base := b!"C") (a := row.1) (by decide)
    rw [List.length_cons, Nat.add_mul]
    omega

/-! ### The number of rows -/

theorem insert_le {α : Type} (k : Bytes) (v : α) : ∀ m : SMap α, (SMap.insert k v m).length ≤ m.length + 1
  | [] => by simp [SMap.insert]
  | (k', v') :: m => by
    have := insert_le k v m
    simp only [SMap.insert]
    repeat' split
    all_goals simp only [List.length_cons]; omega

theorem addRows_le {α : Type} : ∀ (l : List (Bytes × α)) (m : SMap α), (SMap.addRows m l).length ≤ m.length + l.length
  | [], m => by simp [SMap.addRows]
  | (k, v) :: l, m => by
    have h1 := addRows_le l (SMap.insert k v m)
    have h2 := insert_le k v m
    have e : SMap.addRows m ((k, v) :: l) = SMap.addRows (SMap.insert k v m) l := rfl
    rw [e, List.length_cons]
    omega

theorem rows_le {mk : Mktime} {s : Bytes} {p : Policy} (h : createPolicyTree mk s = .ok (some p)) {x : ZMod q} {tape : Nat → ZMod q}
    {o : LSSS (ZMod q)} {m : Nat} (hs : shareSecret false {} (some p) x tape = .ok (o, m)) : o.results.length ≤ 11 * s.length := by
  obtain ⟨-, t, h1, h2, -, -, h5⟩ := accepted_shape h
  obtain ⟨t', g1, -, -, g4, -⟩ := parsed_size h
  rw [h1] at g1
  cases g1
  have hi : IdxOkT (effCount ({} : LSSS (ZMod q)) p) t := fun l hl _ => h5 l hl
  rw [shareSecret_ok {} p t x tape h1 (AndOr.pos _ h2) hi] at hs
  cases hs
  have := addRows_le ((emit tape t x 0).map (toRow (effCount ({} : LSSS (ZMod q)) p))) []
  have hl : (emit tape t x 0).length = (leaves t).length := by
    rw [← List.length_map (f := Prod.fst), emit_fst, (rleaves_perm t).length_eq]
  simp only [List.length_map, List.length_nil] at this
  show (SMap.addRows [] _).length ≤ _
  omega
end

/-! ### Attribute lists -/

/-- Bytes of the text of a token, rounded down. -/
def Tok.bytes : Tok → Nat
  | .leaf s => s.length
  | _ => 1

/-- Bytes of the text of tokens, rounded down. -/
def tokBytes (ts : List Tok) : Nat := (ts.map Tok.bytes).sum

theorem tokBytes_append (a b : List Tok) : tokBytes (a ++ b) = tokBytes a + tokBytes b := by simp [tokBytes]
theorem tokBytes_cons (t : Tok) (a : List Tok) : tokBytes (t :: a) = t.bytes + tokBytes a := by simp [tokBytes]

theorem chr_bytes (b : UInt8) : (Tok.chr b).bytes = 1 := rfl
theorem eol_bytes : Tok.eol.bytes = 1 := rfl

theorem actLeaf_bytes (b : UInt8) (s : Bytes) : (actLeaf (b :: s)).bytes ≤ s.length + 1 := by
  unfold actLeaf
  repeat' split
  all_goals simp [Tok.bytes]

theorem actUint_bytes (s : Bytes) : (actUint s).bytes = 1 := by
  unfold actUint
  repeat' split
  all_goals rfl

theorem actOp_bytes (s : Bytes) : (actOp s).bytes = 1 := by
  unfold actOp
  repeat' split
  all_goals rfl

theorem lex_bytes (n : Nat) : ∀ s : Bytes, s.length ≤ n → tokBytes (lex s) ≤ s.length := by
  induction n with
  | zero =>
    intro s h
    cases s with
    | nil => simp [tokBytes]
    | cons => simp at h
  | succ n ih =>
    intro s h
    cases s with
    | nil => simp [tokBytes]
    | cons b s =>
      simp only [List.length_cons] at h
      have hd : ∀ p : UInt8 → Bool, (s.takeWhile p).length + (s.dropWhile p).length = s.length := fun p => by
        rw [← List.length_append, List.takeWhile_append_dropWhile]
      have hs := ih s (by omega)
      have hp : ∀ p : UInt8 → Bool, tokBytes (lex (s.dropWhile p)) ≤ (s.dropWhile p).length := fun p =>
        ih _ (by have := hd p; omega)
      have h1 := hp isBlank
      have h2 := hp isWord
      have h3 := hp isDigit
      have e1 := hd isBlank
      have e2 := hd isWord
      have e3 := hd isDigit
      have h4 : tokBytes (lex s.tail) ≤ s.tail.length := ih _ (by rw [List.length_tail]; omega)
      have h5 : s.tail.length ≤ s.length := by rw [List.length_tail]; omega
      have a1 := actLeaf_bytes b (s.takeWhile isWord)
      rw [lex_cons]
      repeat' split
      all_goals
        simp only [List.length_cons, tokBytes_cons, actUint_bytes, actOp_bytes, chr_bytes, eol_bytes]
        omega

theorem effective_bytes (s : Bytes) : tokBytes (effective (lex s)) ≤ s.length := by
  have h := lex_bytes s.length s (Nat.le_refl _)
  obtain ⟨r, hr⟩ := List.takeWhile_prefix (fun t : Tok => decide (t.sym ≠ 0)) (l := lex s)
  rw [← hr, tokBytes_append] at h
  exact Nat.le_trans (Nat.le_add_right _ _) h

theorem decAux_length : ∀ (f n k : Nat), n < 10 ^ k → 0 < k → (decAux f n).length ≤ k
  | 0, _, _, _, _ => by simp [decAux]
  | f + 1, n, k, h, hk => by
    rw [decAux]
    split
    · exact hk
    · obtain ⟨k, rfl⟩ : ∃ j, k = j + 1 := ⟨k - 1, by omega⟩
      have h1 : n / 10 < 10 ^ k := by
        rw [Nat.div_lt_iff_lt_mul (by omega), ← Nat.pow_succ]; exact h
      have h2 : 0 < k := by
        rcases Nat.eq_zero_or_pos k with rfl | h2
        · simp at h; omega
        · exact h2
      have := decAux_length f (n / 10) k h1 h2
      simp only [List.length_append, List.length_cons, List.length_nil]
      omega

theorem str_length (n : UInteger) (h : n.bits < 100) : n.str.length ≤ 13 := by
  have h1 := decAux_length (n.val.toNat + 1) n.val.toNat 10 (Nat.lt_of_lt_of_le n.val.toNat_lt (by decide)) (by decide)
  have h2 := decAux_length (n.bits + 1) n.bits 2 (by simpa using h) (by decide)
  unfold UInteger.str natDec
  rw [List.length_append]
  split
  · simp only [List.length_append, List.length_cons, List.length_nil]
    omega
  · simp only [List.length_nil]
    omega

theorem assignLoop_length (fl : Bool) (c : Bytes) (w v : Nat) : ∀ n, (assignLoop fl c w v n).length = n
  | 0 => rfl
  | n + 1 => by simp [assignLoop, assignLoop_length fl c w v n]

theorem assign_length {c : Bytes} {v : UInt32} {w : Nat} (hw : Width w) : (assignStmt c ⟨v, w⟩).length ≤ 32 := by
  unfold assignStmt
  rcases hw with rfl | rfl | rfl | rfl <;> simp only <;> split <;> simp [assignLoop_length]

theorem width_lt {w : Nat} (h : Width w) : w < 100 := by
  rcases h with rfl | rfl | rfl | rfl <;> decide

theorem numToks (n : NumSyn) : 1 ≤ n.toks.length := by cases n <;> simp [NumSyn.toks]

section
variable {mk : Mktime}

/-- Bytes of an item in the compact string. -/
def Item.part (mk : Mktime) (i : Item) : Nat :=
  ((i.strings mk).flatMap (fun a => if hasSub b!"_expint" a then [] else a ++ [124])).length +
    (i.origs.flatMap (fun a => a ++ [124])).length

theorem item_strings {i : Item} (h : i.Ok) : (i.strings mk).length ≤ 11 * i.toks.length := by
  cases i with
  | leaf s => simp [Item.strings, Item.toks]
  | num s n =>
    have h1 := assign_length (c := s) (v := n.val.val) (NumSyn.fits h.1).1
    have h2 := numToks n
    simp only [Item.strings, Item.toks, List.length_cons] at *
    have : assignStmt s n.val = assignStmt s ⟨n.val.val, n.val.bits⟩ := rfl
    rw [this]
    omega
  | date p m d y =>
    have h1 := assign_length (c := p ++ b!":time") (v := validateDate mk (getMonth m) d.val y.val) (w := 32) (.inr (.inr (.inr rfl)))
    have h2 := numToks d
    have h3 := numToks y
    simp only [Item.strings, Item.toks, List.length_cons, List.length_append] at *
    omega

theorem item_part {i : Item} (h : i.Ok) : i.part mk ≤ tokBytes i.toks + 6 * i.toks.length := by
  have e : ∀ b v w, i.value mk = some (b, v, w) →
      (i.strings mk).flatMap (fun a => if hasSub b!"_expint" a then [] else a ++ [124]) = [] := by
    intro b v w hv
    obtain ⟨h1, h2, _, h4⟩ := Item.value_ok h hv
    rw [h4, List.flatMap_eq_nil_iff]
    intro x hx
    rw [assign_expint h1 h2 x hx]
    rfl
  cases i with
  | leaf s =>
    simp only [Item.part, Item.strings, Item.origs, Item.toks, tokBytes_cons, Tok.bytes, List.flatMap_cons, List.flatMap_nil, List.append_nil]
    split
    · simp
    · simp [tokBytes]
  | num s n =>
    unfold Item.part
    rw [e _ _ _ rfl]
    have h1 := str_length n.val (width_lt (NumSyn.fits h.1).1)
    have h2 := numToks n
    simp only [Item.origs, Item.toks, tokBytes_cons, Tok.bytes, List.flatMap_cons, List.flatMap_nil, List.append_nil, List.length_append,
      List.length_cons, List.length_nil] at *
    omega
  | date p m d y =>
    unfold Item.part
    rw [e _ _ _ rfl]
    have hv := h.1
    simp only [Item.valid, Bool.and_eq_true] at hv
    have h1 := str_length d.val (width_lt (NumSyn.fits hv.1).1)
    have h1' := str_length y.val (width_lt (NumSyn.fits hv.2).1)
    have h2 := numToks d
    have h3 := numToks y
    simp only [Item.origs, Item.toks, tokBytes_cons, tokBytes_append, Tok.bytes, List.flatMap_cons, List.flatMap_nil, List.append_nil,
      List.length_append, List.length_cons, List.length_nil] at *
    omega

theorem contrib_strings : ∀ (is P : List Item), (∀ i ∈ is, i.Ok) →
    (contrib (Item.strings mk) P is).length ≤ 11 * (is.map (fun i => i.toks.length)).sum
  | [], _, _ => by simp [contrib]
  | i :: is, P, h => by
    have ih := contrib_strings is (P ++ [i]) (fun j hj => h j (by simp [hj]))
    have hi := item_strings (mk := mk) (h i (by simp))
    simp only [contrib, List.length_append, List.map_cons, List.sum_cons]
    split
    · simp only [List.length_nil]; omega
    · omega

theorem contrib_part : ∀ (is P : List Item), (∀ i ∈ is, i.Ok) →
    ((contrib (Item.strings mk) P is).flatMap (fun a => if hasSub b!"_expint" a then [] else a ++ [124])).length +
      ((contrib Item.origs P is).flatMap (fun a => a ++ [124])).length ≤
      (is.map (fun i => tokBytes i.toks + 6 * i.toks.length)).sum
  | [], _, _ => by simp [contrib]
  | i :: is, P, h => by
    have ih := contrib_part is (P ++ [i]) (fun j hj => h j (by simp [hj]))
    have hi := item_part (mk := mk) (h i (by simp))
    unfold Item.part at hi
    simp only [contrib, List.flatMap_append, List.length_append, List.map_cons, List.sum_cons]
    split
    · simp only [List.flatMap_nil, List.length_nil]; omega
    · omega

theorem items_tokens : ∀ a : AExpr, (a.items.map (fun i => i.toks.length)).sum ≤ a.toks.length ∧
    (a.items.map (fun i => tokBytes i.toks + 6 * i.toks.length)).sum ≤ tokBytes a.toks + 6 * a.toks.length
  | .item i => by simp [AExpr.items, AExpr.toks]
  | .pre a => by
    have := items_tokens a
    simp only [AExpr.items, AExpr.toks, List.length_cons, tokBytes_cons]
    omega
  | .post a => by
    have := items_tokens a
    simp only [AExpr.items, AExpr.toks, List.length_append, tokBytes_append]
    omega
  | .cat a b => by
    have h1 := items_tokens a
    have h2 := items_tokens b
    simp only [AExpr.items, AExpr.toks, List.length_append, List.length_cons, tokBytes_append, tokBytes_cons, List.map_append, List.sum_append]
    omega

theorem items_ok : ∀ {a : AExpr}, a.valid = true → (∀ t ∈ a.toks, TokOk t) → ∀ i ∈ a.items, i.Ok
  | .item i, hv, ht, j, hj => by
    simp only [AExpr.items, List.mem_singleton] at hj
    subst hj
    exact ⟨hv, ht⟩
  | .pre a, hv, ht, j, hj => items_ok (a := a) hv (fun t h => ht t (by simp [AExpr.toks, h])) j hj
  | .post a, hv, ht, j, hj => items_ok (a := a) hv (fun t h => ht t (by simp [AExpr.toks, h])) j hj
  | .cat a b, hv, ht, j, hj => by
    simp only [AExpr.valid, Bool.and_eq_true] at hv
    simp only [AExpr.items, List.mem_append] at hj
    rcases hj with hj | hj
    · exact items_ok hv.1 (fun t h => ht t (by simp [AExpr.toks, h])) j hj
    · exact items_ok hv.2 (fun t h => ht t (by simp [AExpr.toks, h])) j hj

theorem list_size {l : Bytes} {al : AttrList} (h : createAttributeList mk l = .ok (some al)) :
    al.attrs.length ≤ 11 * l.length ∧ al.compact.length ≤ 7 * l.length + 1 := by
  obtain ⟨a, hv, hc, he⟩ := accepted_list h
  obtain ⟨al', g1, g2, g3, g4⟩ := createAttributeList_ok mk hc hv he
  rw [h] at g1
  cases g1
  have hok := items_ok hv g4
  have h1 := contrib_strings (mk := mk) a.items [] hok
  have h2 := contrib_part (mk := mk) a.items [] hok
  have h3 := items_tokens a
  have h4 := effective_length l
  have h5 := effective_bytes l
  rw [he] at h4 h5
  unfold AttrList.compact
  rw [g2, g3, List.length_cons, List.length_append]
  omega
end

/-! ### Keys and ciphertexts -/

section
variable {q : Nat} [Fact q.Prime] {G1 G2 GT : Type} [AddCommGroup G1] [Module (ZMod q) G1] [AddCommGroup G2] [Module (ZMod q) G2]
  [AddCommGroup GT] [Module (ZMod q) GT] {cd : Codec G1 G2 GT} {n : Nat}

theorem cpKeyBody_bytes (hn : ElementBytes cd n) {env : Env G1 G2 GT} {c : Ctx G1 G2 GT} {mpk msk : Key G1 G2 GT} {l : AttrList} {t : ZMod q}
    {d : Container G1 G2 GT} (h : cpKeyBody env c mpk msk l t = .ok d) :
    contBytes cd d ≤ l.attrs.length * (n + 35) + l.compact.length + 2 * n + 50 := by
  unfold cpKeyBody at h
  obtain ⟨_, -, h⟩ := (Res.bind_eq_ok _ _ _).mp h
  obtain ⟨d1, h1, h⟩ := (Res.bind_eq_ok _ _ _).mp h
  obtain ⟨_, -, h⟩ := (Res.bind_eq_ok _ _ _).mp h
  obtain ⟨_, -, h⟩ := (Res.bind_eq_ok _ _ _).mp h
  obtain ⟨al, -, h⟩ := (Res.bind_eq_ok _ _ _).mp h
  obtain ⟨_, -, h⟩ := (Res.bind_eq_ok _ _ _).mp h
  obtain ⟨g2, -, h⟩ := (Res.bind_eq_ok _ _ _).mp h
  obtain ⟨_, -, h⟩ := (Res.bind_eq_ok _ _ _).mp h
  obtain ⟨g2a, -, h⟩ := (Res.bind_eq_ok _ _ _).mp h
  obtain ⟨d2, h2, h⟩ := (Res.bind_eq_ok _ _ _).mp h
  obtain ⟨_, -, h⟩ := (Res.bind_eq_ok _ _ _).mp h
  obtain ⟨g2', -, h⟩ := (Res.bind_eq_ok _ _ _).mp h
  obtain ⟨d3, h3, h⟩ := (Res.bind_eq_ok _ _ _).mp h
  have a1 := set_bytes (cd := cd) h1
  have a2 := set_bytes (cd := cd) h2
  have a3 := set_bytes (cd := cd) h3
  have a4 := cpKeyLoop_bytes hn _ _ _ h
  have e2 := g2_bytes (GT := GT) (G1 := G1) hn ((al : ZMod q) • g2 + t • g2a)
  have e3 := g2_bytes (GT := GT) (G1 := G1) hn (t • g2')
  rw [attrs_bytes] at a1
  simp only [contBytes, List.length_cons, List.length_nil] at *
  omega

theorem kpKeyBody_bytes (hn : ElementBytes cd n) {env : Env G1 G2 GT} (hnd : env.ndebug = false) {c : Ctx G1 G2 GT} {mpk msk : Key G1 G2 GT}
    {p : Policy} {s : Bytes} (hp : createPolicyTree env.mktime s = .ok (some p)) {tape r : Nat → ZMod q} {d : Container G1 G2 GT}
    (h : kpKeyBody env c mpk msk p tape r = .ok d) : contBytes cd d ≤ 11 * s.length * (2 * (n + 35)) + s.length + 20 := by
  unfold kpKeyBody at h
  obtain ⟨_, -, h⟩ := (Res.bind_eq_ok _ _ _).mp h
  obtain ⟨d1, h1, h⟩ := (Res.bind_eq_ok _ _ _).mp h
  obtain ⟨_, -, h⟩ := (Res.bind_eq_ok _ _ _).mp h
  obtain ⟨_, -, h⟩ := (Res.bind_eq_ok _ _ _).mp h
  obtain ⟨⟨sh, _⟩, hs, h⟩ := (Res.bind_eq_ok _ _ _).mp h
  rw [hnd] at hs
  have hr := rows_le hp hs
  have a1 := set_bytes (cd := cd) h1
  rw [bytes_bytes, (accepted_shape hp).1] at a1
  have hm := Nat.mul_le_mul_right (2 * (n + 35)) hr
  simp only [contBytes, List.length_cons, List.length_nil] at *
  split at h
  · cases h; omega
  · obtain ⟨_, -, h⟩ := (Res.bind_eq_ok _ _ _).mp h
    have a4 := kpKeyLoop_bytes hn _ _ _ _ h
    omega

theorem cpEncBody_bytes (hn : ElementBytes cd n) {env : Env G1 G2 GT} (hnd : env.ndebug = false) {c : Ctx G1 G2 GT} {mpk : Key G1 G2 GT}
    {p : Policy} {s : Bytes} (hp : createPolicyTree env.mktime s = .ok (some p)) {len : Nat} {r : Rand q} {ct ct' : Ciphertext G1 G2 GT}
    {key : Bytes} (h : cpEncBody env c mpk p len r ct = .ok (key, ct')) :
    contBytes cd ct'.comps ≤ contBytes cd ct.comps + 11 * s.length * (2 * (n + 35)) + s.length + n + 50 := by
  unfold cpEncBody at h
  obtain ⟨k, -, h⟩ := (Res.bind_eq_ok _ _ _).mp h
  obtain ⟨u, -, h⟩ := (Res.bind_eq_ok _ _ _).mp h
  obtain ⟨A0, -, h⟩ := (Res.bind_eq_ok _ _ _).mp h
  obtain ⟨A, -, h⟩ := (Res.bind_eq_ok _ _ _).mp h
  obtain ⟨⟨sh, m⟩, hs, h⟩ := (Res.bind_eq_ok _ _ _).mp h
  obtain ⟨d, h6, h⟩ := (Res.bind_eq_ok _ _ _).mp h
  obtain ⟨g0, -, h⟩ := (Res.bind_eq_ok _ _ _).mp h
  obtain ⟨g1, -, h⟩ := (Res.bind_eq_ok _ _ _).mp h
  obtain ⟨d1, h9, h⟩ := (Res.bind_eq_ok _ _ _).mp h
  obtain ⟨d2, h10, h⟩ := (Res.bind_eq_ok _ _ _).mp h
  obtain ⟨k', -, h⟩ := (Res.bind_eq_ok _ _ _).mp h
  cases h
  rw [hnd] at hs
  have hr := rows_le hp hs
  have a1 := set_bytes (cd := cd) h6
  rw [bytes_bytes, (accepted_shape hp).1] at a1
  have a2 := set_bytes (cd := cd) h9
  have a3 := cpEncLoop_bytes hn _ _ _ _ h10
  have hm := Nat.mul_le_mul_right (2 * (n + 35)) hr
  have e2 := g1_bytes (GT := GT) (G2 := G2) hn (r.x • g1)
  simp only [contBytes, List.length_cons, List.length_nil] at *
  omega

theorem kpEncBody_bytes (hn : ElementBytes cd n) {env : Env G1 G2 GT} {c : Ctx G1 G2 GT} {mpk : Key G1 G2 GT}
    {l : AttrList} {len : Nat} {r : Rand q} {ct ct' : Ciphertext G1 G2 GT}
    {key : Bytes} (h : kpEncBody env c mpk l len r ct = .ok (key, ct')) :
    contBytes cd ct'.comps ≤ contBytes cd ct.comps + l.attrs.length * (n + 35) + l.compact.length + n + 50 := by
  unfold kpEncBody at h
  obtain ⟨k, -, h⟩ := (Res.bind_eq_ok _ _ _).mp h
  obtain ⟨u, -, h⟩ := (Res.bind_eq_ok _ _ _).mp h
  obtain ⟨A0, -, h⟩ := (Res.bind_eq_ok _ _ _).mp h
  obtain ⟨A, -, h⟩ := (Res.bind_eq_ok _ _ _).mp h
  obtain ⟨g0, -, h⟩ := (Res.bind_eq_ok _ _ _).mp h
  obtain ⟨g2, -, h⟩ := (Res.bind_eq_ok _ _ _).mp h
  obtain ⟨d1, h9, h⟩ := (Res.bind_eq_ok _ _ _).mp h
  obtain ⟨d2, h10, h⟩ := (Res.bind_eq_ok _ _ _).mp h
  obtain ⟨d3, h12, h⟩ := (Res.bind_eq_ok _ _ _).mp h
  obtain ⟨k', -, h⟩ := (Res.bind_eq_ok _ _ _).mp h
  cases h
  have a1 := set_bytes (cd := cd) h9
  have a2 := kpEncLoop_bytes hn _ _ _ h10
  have a3 := set_bytes (cd := cd) h12
  rw [attrs_bytes] at a3
  have e2 := g2_bytes (GT := GT) (G1 := G1) hn (r.x • g2)
  simp only [contBytes, List.length_cons, List.length_nil] at *
  omega

theorem encrypt_bytes (hn : ElementBytes cd n) {env : Env G1 G2 GT} (hnd : env.ndebug = false) {sch : Scheme} {c c' : Ctx G1 G2 GT} {id : Bytes}
    {input : FInput} {pt : Bytes} {r : Rand q} {ct ct' : Ciphertext G1 G2 GT} (h : encrypt env sch c id input pt r ct = .ok (.ok ct', c')) :
    (∀ s p, input = .policy p → createPolicyTree env.mktime s = .ok (some p) →
      contBytes cd ct'.comps ≤ contBytes cd ct.comps + 11 * s.length * (2 * (n + 35)) + s.length + n + pt.length + 70) ∧
    (∀ l al, input = .attrs al → createAttributeList env.mktime l = .ok (some al) →
      contBytes cd ct'.comps ≤ contBytes cd ct.comps + 11 * l.length * (n + 35) + 7 * l.length + n + pt.length + 70) := by
  unfold encrypt at h
  obtain ⟨⟨res, c1⟩, h0, h⟩ := (Res.bind_eq_ok _ _ _).mp h
  cases res with
  | error e => cases h
  | ok kc =>
    obtain ⟨K, ct1⟩ := kc
    simp only at h
    obtain ⟨x, hx, h⟩ := (Res.bind_eq_ok _ _ _).mp h
    obtain ⟨d, hd, h⟩ := (Res.bind_eq_ok _ _ _).mp h
    cases h
    have a1 := set_bytes (cd := cd) hd
    rw [bytes_bytes, xor_length hx] at a1
    simp only [List.length_cons, List.length_nil] at a1
    unfold encryptKEM at h0
    have key : ∀ {b : Res (Bytes × Ciphertext G1 G2 GT)} {cc : Ctx G1 G2 GT},
        (caught b >>= fun res => Res.ok (res, cc)) = .ok (.ok (K, ct1), c') → b = .ok (K, ct1) := by
      intro b cc hb
      obtain ⟨res, g1, g2⟩ := (Res.bind_eq_ok _ _ _).mp hb
      cases g2
      unfold caught at g1
      split at g1 <;> simp_all
    cases sch <;> cases input <;> simp only [Bool.true_eq_false, if_false, if_true] at h0
    all_goals first
      | (cases h0)
      | skip
    all_goals
      cases hm : (c.ks.getPublicKey id).1 with
      | none => rw [hm] at h0; have := key h0; cases this
      | some mpk =>
        rw [hm] at h0
        have hb := key h0
        refine ⟨?_, ?_⟩
        · intro s p e hp
          cases e
          try
            have := cpEncBody_bytes hn hnd hp hb
            simp only at *
            omega
        · intro l al e hl
          cases e
          try
            have h1 := kpEncBody_bytes hn hb
            have h2 := list_size hl
            have h3 := Nat.mul_le_mul_right (n + 35) h2.1
            simp only at *
            omega

theorem keyBytes_le {k : Key G1 G2 GT} {b : Bytes} (h : k.exportBytes cd = .ok b) (hu : k.uid.length = uidLen) :
    b.length ≤ contBytes cd k.comps + k.id.length + 26 := by
  unfold Key.exportBytes at h
  obtain ⟨x, hx, h⟩ := (Res.bind_eq_ok _ _ _).mp h
  cases h
  have := serialize_le _ _ hx
  simp only [BS.pack, BS.be32, Key.header, List.length_append, List.length_cons, List.length_nil, hu, uidLen]
  omega

theorem ctBytes_le {ct : Ciphertext G1 G2 GT} {b : Bytes} (h : ct.exportBytes cd = .ok b) (hu : ct.uid.length = uidLen) :
    b.length ≤ contBytes cd ct.comps + 28 := by
  unfold Ciphertext.exportBytes at h
  obtain ⟨x, hx, h⟩ := (Res.bind_eq_ok _ _ _).mp h
  cases h
  have := serialize_le _ _ hx
  have h1 := smartPack_le (BS.smartPack [] ct.header) x
  have h2 := smartPack_le [] ct.header
  simp only [Ciphertext.header, List.length_append, List.length_cons, List.length_nil, hu, uidLen] at *
  omega
end

end Abe
