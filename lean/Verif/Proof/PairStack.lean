import Verif.Model.PairStack
import Verif.Spec.PairStack
import Verif.Proof.CallStack
import Verif.Proof.RowsExact
import Verif.Props.Rows
import Verif.Props.Search
/-! # Decryption with its arrays, for C142 -/
set_option linter.unusedSimpArgs false
set_option linter.unusedSectionVars false
set_option autoImplicit false
namespace Abe
namespace PairStack
open Scheme

variable {G1 G2 GT : Type} {q : Nat} [Fact q.Prime]
variable [AddCommGroup G1] [Module (ZMod q) G1] [AddCommGroup G2] [Module (ZMod q) G2] [AddCommGroup GT]
  [Module (ZMod q) GT]

/-! ### The product -/

theorem copy_eq {α : Type} (v : List α) : ∀ (n i : Nat) (arr : List α), i + n ≤ v.length → copy v n i arr = .ok (arr ++ (v.drop i).take n)
  | 0, i, arr, _ => by simp [copy]
  | n + 1, i, arr, h => by
    have hi : i < v.length := by omega
    rw [copy, List.getElem?_eq_getElem hi]
    simp only
    rw [copy_eq v n (i + 1) _ (by omega), List.drop_eq_getElem_cons hi, List.take_succ_cons, List.append_assoc]
    rfl

theorem multiPairing_eq (z : Sizes) (stack : Nat) (env : Env G1 G2 GT) (l : List (G1 × G2)) :
    multiPairing z stack env (l.map Prod.fst) (l.map Prod.snd) =
      if l.length ≠ 0 ∧ stack < l.length * z.pair then .ub else Scheme.multiPairing env l := by
  unfold multiPairing Scheme.multiPairing Sizes.pair
  simp only [List.length_map, ne_eq, not_true_eq_false, false_or, Nat.mul_add]
  by_cases h0 : l.length = 0
  · simp [h0]
  · simp only [h0, not_false_eq_true, true_and, if_false]
    by_cases h1 : stack < l.length * z.g1 + l.length * z.g2
    · simp [h1]
    · simp only [h1, if_false]
      rw [copy_eq _ _ _ _ (by simp), copy_eq _ _ _ _ (by simp)]
      simp only [List.nil_append, List.drop_zero, Res.ok_bind]
      rw [List.take_of_length_le (by simp), List.take_of_length_le (by simp), List.zipWith_map]
      congr 2
      induction l with
      | nil => rfl
      | cons a l ih => simp

/-! ### The loops -/

theorem cpDecLoop_eq (env : Env G1 G2 GT) (key ct : Container G1 G2 GT) :
    ∀ (rows : List (Bytes × (Bytes × ZMod q))) (p : G1) (l : List (G1 × G2)),
      cpDecLoop env key ct rows p (l.map Prod.fst) (l.map Prod.snd) =
        (do let x ← Scheme.cpDecLoop env key ct rows p l; .ok (x.1, x.2.map Prod.fst, x.2.map Prod.snd))
  | [], p, l => rfl
  | row :: rows, p, l => by
    simp only [cpDecLoop, Scheme.cpDecLoop, res_bind_assoc]
    refine congrArg _ (funext fun a => congrArg _ (funext fun b => congrArg _ (funext fun c => congrArg _ (funext fun d =>
      congrArg _ (funext fun e => congrArg _ (funext fun f => ?_))))))
    rw [← cpDecLoop_eq env key ct rows]
    simp

theorem cpDecLoop_length (env : Env G1 G2 GT) (key ct : Container G1 G2 GT) :
    ∀ (rows : List (Bytes × (Bytes × ZMod q))) (p : G1) (l : List (G1 × G2)) (x : G1 × List (G1 × G2)),
      Scheme.cpDecLoop env key ct rows p l = .ok x → x.2.length = l.length + rows.length
  | [], p, l, x, h => by cases h; rfl
  | row :: rows, p, l, x, h => by
    simp only [Scheme.cpDecLoop] at h
    obtain ⟨_, -, h⟩ := (Res.bind_eq_ok _ _ _).mp h
    obtain ⟨_, -, h⟩ := (Res.bind_eq_ok _ _ _).mp h
    obtain ⟨_, -, h⟩ := (Res.bind_eq_ok _ _ _).mp h
    obtain ⟨_, -, h⟩ := (Res.bind_eq_ok _ _ _).mp h
    obtain ⟨_, -, h⟩ := (Res.bind_eq_ok _ _ _).mp h
    obtain ⟨_, -, h⟩ := (Res.bind_eq_ok _ _ _).mp h
    rw [cpDecLoop_length env key ct rows _ _ x h]
    simp only [List.length_append, List.length_cons, List.length_nil]
    omega

theorem kpDecLoop_eq (env : Env G1 G2 GT) (key ct : Container G1 G2 GT) :
    ∀ (rows : List (Bytes × (Bytes × ZMod q))) (p : G1) (l : List (G1 × G2)),
      kpDecLoop env key ct rows p (l.map Prod.fst) (l.map Prod.snd) =
        (do let x ← Scheme.kpDecLoop env key ct rows p l; .ok (x.1, x.2.map Prod.fst, x.2.map Prod.snd))
  | [], p, l => rfl
  | row :: rows, p, l => by
    simp only [kpDecLoop, Scheme.kpDecLoop, res_bind_assoc]
    refine congrArg _ (funext fun a => congrArg _ (funext fun b => congrArg _ (funext fun c => congrArg _ (funext fun d =>
      congrArg _ (funext fun e => congrArg _ (funext fun f => ?_))))))
    rw [← kpDecLoop_eq env key ct rows]
    simp

theorem kpDecLoop_length (env : Env G1 G2 GT) (key ct : Container G1 G2 GT) :
    ∀ (rows : List (Bytes × (Bytes × ZMod q))) (p : G1) (l : List (G1 × G2)) (x : G1 × List (G1 × G2)),
      Scheme.kpDecLoop env key ct rows p l = .ok x → x.2.length = l.length + rows.length
  | [], p, l, x, h => by cases h; rfl
  | row :: rows, p, l, x, h => by
    simp only [Scheme.kpDecLoop] at h
    obtain ⟨_, -, h⟩ := (Res.bind_eq_ok _ _ _).mp h
    obtain ⟨_, -, h⟩ := (Res.bind_eq_ok _ _ _).mp h
    obtain ⟨_, -, h⟩ := (Res.bind_eq_ok _ _ _).mp h
    obtain ⟨_, -, h⟩ := (Res.bind_eq_ok _ _ _).mp h
    obtain ⟨_, -, h⟩ := (Res.bind_eq_ok _ _ _).mp h
    obtain ⟨_, -, h⟩ := (Res.bind_eq_ok _ _ _).mp h
    rw [kpDecLoop_length env key ct rows _ _ x h]
    simp only [List.length_append, List.length_cons, List.length_nil]
    omega

/-! ### With and without a stack -/

/-- `x` is what happens with the arrays and `y` without: `x` is undefined if some number with `P` does not fit, and otherwise the same;
`y` succeeds only after a number with `P`. -/
def Against (room : Nat → Prop) (P : Nat → Prop) {α : Type} (good : α → Prop) (x y : Res α) : Prop :=
  (∃ n, P n ∧ ¬ room n ∧ x = .ub) ∨ (x = y ∧ ∀ a, y = .ok a → good a → ∃ n, P n ∧ room n)

theorem Against.bind {room P : Nat → Prop} {α β : Type} {g : β → Prop} {x : Res α} {f f' : α → Res β}
    (h : ∀ a, x = .ok a → Against room P g (f a) (f' a)) : Against room P g (x >>= f) (x >>= f') := by
  cases x with
  | ok a => simpa using h a rfl
  | throw e => exact .inr ⟨rfl, fun a ha => by cases ha⟩
  | ub => exact .inr ⟨rfl, fun a ha => by cases ha⟩
  | abort => exact .inr ⟨rfl, fun a ha => by cases ha⟩

theorem Against.product {P : Nat → Prop} {α : Type} {g : α → Prop} (z : Sizes) (stack : Nat) (env : Env G1 G2 GT) (l : List (G1 × G2))
    (f : GT → Res α) (hP : P l.length) : Against (fun n => n * z.pair ≤ stack) P g
      (multiPairing z stack env (l.map Prod.fst) (l.map Prod.snd) >>= f) (Scheme.multiPairing env l >>= f) := by
  rw [multiPairing_eq]
  by_cases h : l.length ≠ 0 ∧ stack < l.length * z.pair
  · rw [if_pos h]
    exact .inl ⟨_, hP, by omega, rfl⟩
  · rw [if_neg h]
    refine .inr ⟨rfl, fun a ha _ => ⟨_, hP, ?_⟩⟩
    by_cases h0 : l.length = 0
    · simp [h0]
    · have : ¬ stack < l.length * z.pair := fun h1 => h ⟨h0, h1⟩
      omega

theorem notNull_ok {α : Type} {x : Option α} {a : α} (h : notNull x = .ok a) : x = some a := by
  cases x <;> cases h; rfl

theorem castAttrs_ok {x : Obj G1 G2 GT} {a : AttrList} (h : castAttrs x = .ok a) : x = .attrs a := by
  cases x <;> cases h; rfl

theorem body_against (z : Sizes) (stack : Nat) (env : Env G1 G2 GT) (sch : Scheme) (c : Ctx G1 G2 GT) (key ct : Container G1 G2 GT)
    (len : Nat) : Against (fun n => n * z.pair ≤ stack) (fun n => ∃ text attrs, Meets sch key ct text attrs ∧ Uses q env text attrs n)
      (fun _ => True)
      (match sch with | .cp => cpDecBody q z stack env c key ct len | .kp => kpDecBody q z stack env c key ct len)
      (match sch with | .cp => Scheme.cpDecBody q env c key ct len | .kp => Scheme.kpDecBody q env c key ct len) := by
  cases sch with
  | cp =>
    unfold cpDecBody Scheme.cpDecBody
    refine .bind fun inp h1 => .bind fun txt h2 => .bind fun text h3 => .bind fun pol h4 => .bind fun attrs h5 => .bind fun x h6 => ?_
    obtain ⟨good, o, p'⟩ := x
    cases good with
    | false => exact .inr ⟨rfl, fun a ha => by cases ha⟩
    | true =>
      simp only [Bool.true_eq_false, if_false]
      have e := cpDecLoop_eq env key ct o.results 0 []
      simp only [List.map_nil] at e
      rw [e, res_bind_assoc]
      refine .bind fun x h7 => ?_
      simp only [Res.ok_bind]
      refine .bind fun _ _ => .product z stack env x.2 _ ?_
      have hl := cpDecLoop_length env key ct o.results 0 [] x h7
      refine ⟨text, attrs.attrs, ⟨attrs, ?_, rfl, ?_⟩, pol, o, p', h4, h6, by rw [hl]; simp⟩
      · rw [h1, castAttrs_ok h5]
      · rw [h2, notNull_ok h3]
  | kp =>
    unfold kpDecBody Scheme.kpDecBody
    refine .bind fun txt h2 => .bind fun text h3 => .bind fun pol h4 => .bind fun inp h1 => .bind fun attrs h5 => .bind fun x h6 => ?_
    obtain ⟨good, o, p'⟩ := x
    cases good with
    | false => exact .inr ⟨rfl, fun a ha => by cases ha⟩
    | true =>
      simp only [Bool.true_eq_false, if_false]
      have e := kpDecLoop_eq env key ct o.results 0 []
      simp only [List.map_nil] at e
      rw [e, res_bind_assoc]
      refine .bind fun x h7 => ?_
      simp only [Res.ok_bind]
      refine .bind fun _ _ => .product z stack env x.2 _ ?_
      have hl := kpDecLoop_length env key ct o.results 0 [] x h7
      refine ⟨text, attrs.attrs, ⟨attrs, ?_, rfl, ?_⟩, pol, o, p', h4, h6, by rw [hl]; simp⟩
      · rw [h1, castAttrs_ok h5]
      · rw [h2, notNull_ok h3]

/-- `decryptKEM` without its lookup. -/
def body (q : Nat) [Fact q.Prime] [Module (ZMod q) G1] (z : Sizes) (stack : Nat) (env : Env G1 G2 GT) (sch : Scheme) (c : Ctx G1 G2 GT)
    (key ct : Container G1 G2 GT) (len : Nat) : Res Bytes :=
  match sch with
  | .cp => cpDecBody q z stack env c key ct len
  | .kp => kpDecBody q z stack env c key ct len

/-- `body` without arrays. -/
def body' (q : Nat) [Fact q.Prime] [Module (ZMod q) G1] (env : Env G1 G2 GT) (sch : Scheme) (c : Ctx G1 G2 GT)
    (key ct : Container G1 G2 GT) (len : Nat) : Res Bytes :=
  match sch with
  | .cp => Scheme.cpDecBody q env c key ct len
  | .kp => Scheme.kpDecBody q env c key ct len

/-- What is left after a body. -/
def finish (env : Env G1 G2 GT) (c : Ctx G1 G2 GT) (ct : Ciphertext G1 G2 GT) (b : Res Bytes) : Res (Option Err × Bytes × Ctx G1 G2 GT) := do
  let res ← caught b
  let out ← caught (match res with
    | .error e => .throw e
    | .ok K => do
      let ed ← getBytes ct.comps b!"_ED"
      let enc ← notNull ed
      let mask := hashFromBytes env.md K enc.length schemeHashPrefix
      BS.xorAssign enc mask)
  match out with
  | .error e => .ok (some e, [], c)
  | .ok p => .ok (none, p, c)

theorem decrypt_eq (z : Sizes) (stack : Nat) (env : Env G1 G2 GT) (sch : Scheme) (c : Ctx G1 G2 GT) (keyID : Bytes)
    (ct : Ciphertext G1 G2 GT) : decrypt q z stack env sch c keyID ct =
      finish env { c with ks := (c.ks.getSecretKey keyID).2 } ct (match (c.ks.getSecretKey keyID).1 with
        | none => .throw .invalidInput
        | some key => body q z stack env sch c key.comps ct.comps symKeyBytes) := by
  unfold decrypt decryptKEM finish body
  simp only [res_bind_assoc, Res.ok_bind]
  rfl

theorem decrypt_eq' (env : Env G1 G2 GT) (sch : Scheme) (c : Ctx G1 G2 GT) (keyID : Bytes)
    (ct : Ciphertext G1 G2 GT) : Scheme.decrypt q env sch c keyID ct =
      finish env { c with ks := (c.ks.getSecretKey keyID).2 } ct (match (c.ks.getSecretKey keyID).1 with
        | none => .throw .invalidInput
        | some key => body' q env sch c key.comps ct.comps symKeyBytes) := by
  unfold Scheme.decrypt Scheme.decryptKEM finish body'
  simp only [res_bind_assoc, Res.ok_bind]
  rfl

theorem finish_ok {env : Env G1 G2 GT} {c : Ctx G1 G2 GT} {ct : Ciphertext G1 G2 GT} {b : Res Bytes}
    {a : Option Err × Bytes × Ctx G1 G2 GT} (h : finish env c ct b = .ok a) (ha : a.1 = none) : ∃ K, b = .ok K := by
  cases b with
  | ok K => exact ⟨K, rfl⟩
  | throw e => cases e <;> cases h <;> cases ha
  | ub => cases h
  | abort => cases h

/-- What decryption does with its arrays: the same as without, unless the rows that it uses do not fit. -/
theorem decrypt_against (z : Sizes) (stack : Nat) (env : Env G1 G2 GT) (sch : Scheme) (c : Ctx G1 G2 GT) (keyID : Bytes)
    (ct : Ciphertext G1 G2 GT) :
    Against (fun n => n * z.pair ≤ stack)
      (fun n => ∃ key text attrs, (c.ks.getSecretKey keyID).1 = some key ∧ Meets sch key.comps ct.comps text attrs ∧ Uses q env text attrs n)
      (fun a => a.1 = none) (decrypt q z stack env sch c keyID ct) (Scheme.decrypt q env sch c keyID ct) := by
  rw [decrypt_eq, decrypt_eq']
  cases hk : (c.ks.getSecretKey keyID).1 with
  | none => exact .inr ⟨rfl, fun a ha hg => by obtain ⟨K, hK⟩ := finish_ok ha hg; cases hK⟩
  | some key =>
    have hb : Against _ _ _ (body q z stack env sch c key.comps ct.comps symKeyBytes) (body' q env sch c key.comps ct.comps symKeyBytes) :=
      body_against (q := q) z stack env sch c key.comps ct.comps symKeyBytes
    simp only
    rcases hb with ⟨n, ⟨text, attrs, hm, hu⟩, hn, hx⟩ | ⟨hx, hy⟩
    · exact .inl ⟨n, ⟨key, text, attrs, rfl, hm, hu⟩, hn, by rw [hx]; rfl⟩
    · refine .inr ⟨by rw [hx], fun a ha hg => ?_⟩
      obtain ⟨K, hK⟩ := finish_ok ha hg
      obtain ⟨n, ⟨text, attrs, hm, hu⟩, hn⟩ := hy K hK trivial
      exact ⟨n, ⟨key, text, attrs, rfl, hm, hu⟩, hn⟩

/-! ### How many rows -/

theorem length_insert_le {α : Type} (k : Bytes) (v : α) : ∀ m : SMap α, (SMap.insert k v m).length ≤ m.length + 1
  | [] => by simp [SMap.insert]
  | p :: m => by
    have ih := length_insert_le k v m
    unfold SMap.insert
    repeat' split
    all_goals simp only [List.length_cons]; omega

theorem length_addRows_le {α : Type} : ∀ (l : List (Bytes × α)) (m : SMap α), (SMap.addRows m l).length ≤ m.length + l.length
  | [], m => by simp [SMap.addRows]
  | p :: l, m => by
    have h1 := length_addRows_le l (SMap.insert p.1 p.2 m)
    have h2 := length_insert_le p.1 p.2 m
    simp only [SMap.addRows, List.length_cons]
    omega

theorem uses_le {env : Env G1 G2 GT} (hnd : env.ndebug = false) {text : Bytes} {attrs : List Bytes} {n : Nat}
    (h : Uses q env text attrs n) : n ≤ 11 * text.length := by
  obtain ⟨pol, o, p', h1, h2, rfl⟩ := h
  cases pol with
  | none => cases h2
  | some p =>
    obtain ⟨-, t, hr, hao, hbin, hfr, hidx⟩ := accepted_shape h1
    obtain ⟨t1, hr1, -, -, hl, -⟩ := parsed_size h1
    rw [hr] at hr1; cases hr1
    refine Nat.le_trans ?_ hl
    rw [hnd] at h2
    cases hs : sat attrs t with
    | false =>
      obtain ⟨t', -, h3⟩ := recover_unsat (F := ZMod q) env.sort {} p t attrs hr hao hfr hs
      rw [h3] at h2
      cases h2
    | true =>
      have hi : IdxOkT (effCount ({} : LSSS (ZMod q)) p) t := fun l hl _ => hidx l hl
      obtain ⟨t', h4, h3⟩ := recover_sat (F := ZMod q) env.sort {} p t attrs hr hao hfr (.inl hbin) hi hs
      rw [h3] at h2
      cases h2
      simp only
      refine Nat.le_trans (length_addRows_le _ _) ?_
      rw [List.length_map, ← h4.same.leaves, ← (rleaves_perm t').length_eq, ← recFull_fst t' (1 : ZMod q) true]
      simpa using (recRows_keys_sublist (recFull t' (1 : ZMod q) true)).length_le

/-! ### A long chain -/

/-- The formula of `andChain`. -/
def andExpr : Nat → Expr
  | 0 => .leaf b!"a"
  | n + 1 => .and (andExpr n) (.leaf b!"a")

theorem andc_toks : ∀ n, (andExpr n).toks = .leaf b!"a" :: (List.replicate n [Tok.and, Tok.leaf b!"a"]).flatten
  | 0 => rfl
  | n + 1 => by
    rw [andExpr, Expr.toks, andc_toks n, List.replicate_succ', List.flatten_append]
    simp [Expr.toks]

theorem andc_text (n : Nat) : andChain n = spaced (andExpr n).toks := by
  rw [andc_toks]
  simp only [spaced, List.flatMap_cons, andChain]
  congr 1
  induction n with
  | zero => rfl
  | succ n ih =>
    rw [List.replicate_succ, List.flatten_cons, ih, List.replicate_succ, List.flatten_cons, List.flatMap_append]
    rfl

theorem andc_canon : ∀ n, (andExpr n).canon = true
  | 0 => rfl
  | n + 1 => by
    have : ∀ m, (andExpr m).isOr = false := fun m => by cases m <;> rfl
    have h := this n
    rw [andExpr, Expr.canon, andc_canon n, h]
    rfl

theorem andc_valid : ∀ n, (andExpr n).valid = true
  | 0 => rfl
  | n + 1 => by simp [andExpr, Expr.valid, andc_valid n]

theorem andc_conds : ∀ n, (andExpr n).conds = []
  | 0 => rfl
  | n + 1 => by simp [andExpr, Expr.conds, andc_conds n]

theorem andc_plain : ∀ n, ∀ s ∈ (andExpr n).plain, s = b!"a"
  | 0, s, h => by simpa [andExpr, Expr.plain] using h
  | n + 1, s, h => by
    simp only [andExpr, Expr.plain, List.mem_append, List.mem_singleton] at h
    rcases h with h | h
    · exact andc_plain n s h
    · exact h

theorem andc_tok_mem {n : Nat} {t : Tok} (h : t ∈ (andExpr n).toks) : t = .and ∨ t = .leaf b!"a" := by
  rw [andc_toks] at h
  simp only [List.mem_cons, List.mem_flatten, List.mem_replicate] at h
  rcases h with rfl | ⟨l, ⟨-, rfl⟩, h⟩
  · exact Or.inr rfl
  · simpa using h

theorem andc_effective (n : Nat) : effective (lex (andChain n)) = (andExpr n).toks := by
  rw [andc_text, lex_spaced]
  · refine List.takeWhile_eq_self_iff.mpr (fun t ht => ?_)
    rcases andc_tok_mem ht with rfl | rfl <;> decide
  · intro t ht
    rcases andc_tok_mem ht with rfl | rfl
    · trivial
    · show isName _ = true
      decide
  · intro t ht
    rcases andc_tok_mem ht with rfl | rfl <;> rfl

theorem andc_policy (mk : Mktime) (n : Nat) : PolicyText mk (andChain n) (andExpr n) where
  toks := andc_effective n
  canon := andc_canon n
  valid := andc_valid n
  dates := by intro c hc; rw [andc_conds] at hc; simp at hc
  names := ⟨fun s hs => by rw [andc_plain n s hs]; exact ⟨TextEx.nameOk (by decide), by decide⟩, fun c hc => by rw [andc_conds] at hc; simp at hc⟩

theorem andc_noPercent (n : Nat) : (andExpr n).Unnumbered :=
  Expr.NoPercent.unnumbered ⟨fun s hs => by rw [andc_plain n s hs]; decide, fun c hc => by rw [andc_conds] at hc; simp at hc⟩

theorem andc_true (mk : Mktime) (a : AExpr) (ha : Item.leaf b!"a" ∈ a.items) : ∀ n, (andExpr n).trueFor mk a
  | 0 => ha
  | n + 1 => ⟨andc_true mk a ha n, ha⟩

theorem leafNode_ways {H : Bytes → Prop} {m : Nat} {s : Bytes} {d d' : Drv} {t : TNode} (h : leafNode d s = .ok (t, d'))
    (hw : Ways H t m) : m = 1 := by
  obtain ⟨p, a, i, _, rfl⟩ := leafNode_inv h
  cases hw
  rfl

theorem andc_ways {mk : Mktime} {H : Bytes → Prop} : ∀ (n : Nat) (d d' : Drv) (t : TNode) (m : Nat),
    (andExpr n).eval mk d = .ok (t, d') → Ways H t m → m = n + 1
  | 0, d, d', t, m, h, hw => leafNode_ways h hw
  | n + 1, d, d', t, m, h, hw => by
    simp only [andExpr, Expr.eval] at h
    obtain ⟨x, hx, h⟩ := (Res.bind_eq_ok _ _ _).mp h
    obtain ⟨y, hy, h⟩ := (Res.bind_eq_ok _ _ _).mp h
    cases h
    cases hw with
    | all h1 h2 =>
      cases h2 with
      | all h2 h3 =>
        cases h3
        have e1 := andc_ways n _ _ _ _ hx h1
        have e2 := leafNode_ways hy h2
        omega

end PairStack
end Abe
