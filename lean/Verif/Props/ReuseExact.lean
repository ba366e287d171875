import Verif.Props.Exact
import Verif.Props.Keystore
import Verif.Props.Container
/-!
# Exactly which earlier calls change what an object answers (C145)
-/
set_option linter.unusedSimpArgs false
set_option linter.unusedSectionVars false
set_option autoImplicit false
namespace Abe
open TextEx

/-! ### Sharing objects -/

/-- What a sharing object remembers of the policies it was used with, oldest first, each given as the attributes at its
leaves: the last one in which an attribute is repeated. -/
def remembered (history : List (List Bytes)) : List Bytes :=
  history.foldl (fun m ls => if ls.Nodup then m else ls) []

section Sharing
variable {mk : Mktime} {F : Type} [Field F] [DecidableEq F]

/-- One use of a sharing object. -/
inductive Use (F : Type)
  | share (p : Policy) (secret : F) (tape : Nat → F)
  | recover (p : Policy) (A : List Bytes)

/-- The policy of a use. -/
def Use.policy : Use F → Policy
  | .share p _ _ => p
  | .recover p _ => p

/-- The object after a use. -/
def Use.run (S : StdSort) (o : LSSS F) : Use F → Res (LSSS F)
  | .share p s tape => shareSecret false o (some p) s tape >>= fun r => .ok r.1
  | .recover p A => recoverCoefficients S false o (some p) A >>= fun r => .ok r.2.1

/-- The object after several uses. -/
def runUses (S : StdSort) (o : LSSS F) : List (Use F) → Res (LSSS F)
  | [] => .ok o
  | u :: us => u.run S o >>= fun o' => runUses S o' us

/-- The policy of the use was read from a text and has the attributes `ls` at its leaves. -/
def Use.Reads (mk : Mktime) (u : Use F) (ls : List Bytes) : Prop :=
  ∃ (s : Bytes) (e : Expr) (t : TNode), PolicyText mk s e ∧ createPolicyTree mk s = .ok (some u.policy) ∧
    u.policy.root = some t ∧ ls = (leaves t).map Leaf.label

/-- The object knows the repeated attributes of `m`. -/
def Knows (o : LSSS F) (m : List Bytes) : Prop := ∀ c, (SMap.find c o.attrCount).isSome ↔ 2 ≤ m.count c

theorem count_lt_two {ls : List Bytes} (h : ls.Nodup) (c : Bytes) : ¬ 2 ≤ ls.count c := by
  have := List.nodup_iff_count_le_one.mp h c
  omega

theorem knows_eff {s : Bytes} {e : Expr} (h : PolicyText mk s e) {p : Policy} {t : TNode}
    (hp : createPolicyTree mk s = .ok (some p)) (ht : p.root = some t) {o : LSSS F} {m : List Bytes} (hk : Knows o m) (c : Bytes) :
    (SMap.find c (effCount o p)).isSome ↔
      2 ≤ (if ((leaves t).map Leaf.label).Nodup then m else (leaves t).map Leaf.label).count c := by
  obtain ⟨hd1, hd2⟩ := parsed_dup h hp ht
  unfold effCount
  cases hdup : p.hasDup with
  | true =>
    rw [if_neg (hd2.mp hdup)]
    have := hd1 c
    rw [hdup] at this
    exact this
  | false =>
    have hn : ((leaves t).map Leaf.label).Nodup := by
      by_contra hc
      rw [hd2.mpr hc] at hdup
      cases hdup
    rw [if_pos hn]
    exact hk c

theorem use_ok (S : StdSort) {u : Use F} {ls : List Bytes} (h : u.Reads mk ls) {o : LSSS F} {m : List Bytes} (hk : Knows o m) :
    ∃ o', u.run S o = .ok o' ∧ Knows o' (if ls.Nodup then m else ls) := by
  obtain ⟨s, e, t, hs, hp, ht, rfl⟩ := h
  obtain ⟨p', t', d', h1, h2, _, h4, h5, h6, h7, _⟩ := parsed hs
  rw [hp] at h1
  cases h1
  rw [ht] at h2
  cases h2
  have hi : IdxOkT (effCount o u.policy) t := fun l hl _ => h7 l hl
  have hk' := knows_eff hs hp ht hk
  cases u with
  | share p sec tape =>
    exact ⟨{ results := SMap.addRows [] ((emit tape t sec 0).map (toRow (effCount o p))), attrCount := effCount o p },
      by simp only [Use.run]; rw [shareSecret_ok o p t sec tape ht h4.pos hi]; rfl, hk'⟩
  | recover p A =>
    cases hsat : sat A t with
    | true =>
      obtain ⟨t', _, hr⟩ := recover_sat S o p t A ht h4 h6 (.inl h5) hi hsat
      exact ⟨{ results := SMap.addRows [] ((recRows (recFull t' (1 : F) true)).map (toRow (effCount o p))), attrCount := effCount o p },
        by simp only [Use.run]; rw [hr]; rfl, hk'⟩
    | false =>
      obtain ⟨t', _, hr⟩ := recover_unsat S o p t A ht h4 h6 hsat
      exact ⟨{ results := [], attrCount := effCount o p }, by simp only [Use.run]; rw [hr]; rfl, hk'⟩

theorem uses_ok (S : StdSort) {us : List (Use F)} {lss : List (List Bytes)} (h : List.Forall₂ (Use.Reads mk) us lss) :
    ∀ {o : LSSS F} {m : List Bytes}, Knows o m →
    ∃ o', runUses S o us = .ok o' ∧ Knows o' (lss.foldl (fun m ls => if ls.Nodup then m else ls) m) := by
  induction h with
  | nil => intro o m hk; exact ⟨o, rfl, hk⟩
  | cons hu _ ih =>
    intro o m hk
    obtain ⟨o1, h1, h2⟩ := use_ok S hu hk
    obtain ⟨o2, h3, h4⟩ := ih h2
    exact ⟨o2, by rw [runUses, h1]; exact h3, h4⟩

theorem uniqueLabel_length (ac : SMap Nat) (l : Leaf) : l.label.length ≤ (uniqueLabel ac l).length ∧
    ((SMap.find l.label ac).isSome → l.label.length < (uniqueLabel ac l).length) := by
  have e37 : (b!"%" : Bytes) = [37] := by decide
  unfold uniqueLabel
  split
  · rw [e37]; simp only [List.length_append, List.length_cons, List.length_nil]; omega
  · rename_i h; exact ⟨Nat.le_refl _, fun h' => absurd h' h⟩

/-- Rows with pairwise different attributes are stored in the same way with and without remembered numbers exactly when none
of their attributes is remembered. -/
theorem rows_same_iff (ac : SMap Nat) (rows : List (Leaf × F)) (hn : (rows.map fun x => x.1.label).Nodup) :
    SMap.addRows [] (rows.map (toRow ac)) = SMap.addRows [] (rows.map (toRow [])) ↔
      ∀ x ∈ rows, ¬ (SMap.find x.1.label ac).isSome := by
  constructor
  · intro h x hx hs
    have e0 : (rows.map (toRow ([] : SMap Nat))).map Prod.fst = rows.map fun x => x.1.label := by
      rw [fst_toRow, List.map_map]; rfl
    have hset : ((rows.map (toRow ac)).map Prod.fst).toFinset = (rows.map fun x => x.1.label).toFinset := by
      rw [← e0]
      ext k
      rw [List.mem_toFinset, List.mem_toFinset, ← addRows_keys, h, addRows_keys]
    have hcard : ((rows.map (toRow ac)).map Prod.fst).toFinset.card = ((rows.map (toRow ac)).map Prod.fst).length := by
      rw [hset, List.toFinset_card_of_nodup hn]; simp
    have hnd : ((rows.map (toRow ac)).map Prod.fst).Nodup := by
      refine Multiset.coe_nodup.mp (Multiset.dedup_card_eq_card_iff_nodup.mp ?_)
      simpa [List.toFinset, Multiset.toFinset] using hcard
    have hperm : ((rows.map (toRow ac)).map Prod.fst).Perm (rows.map fun x => x.1.label) := by
      refine (List.perm_ext_iff_of_nodup hnd hn).mpr fun k => ?_
      rw [← List.mem_toFinset, hset, List.mem_toFinset]
    have hsum := (hperm.map List.length).sum_eq
    have hlt : ((rows.map fun x => x.1.label).map List.length).sum < (((rows.map (toRow ac)).map Prod.fst).map List.length).sum := by
      rw [List.map_map, List.map_map, List.map_map]
      exact List.sum_lt_sum _ _ (fun y _ => (uniqueLabel_length ac y.1).1) ⟨x, hx, (uniqueLabel_length ac x.1).2 hs⟩
    omega
  · intro h
    congr 1
    refine List.map_congr_left fun x hx => ?_
    have : uniqueLabel ac x.1 = uniqueLabel [] x.1 := by
      unfold uniqueLabel
      rw [if_neg (h x hx), if_neg (by simp [SMap.find])]
    unfold toRow
    rw [this]

/-- A used object shares like a new one exactly when an attribute is repeated in the policy, or no attribute of it was repeated
in the last policy with repeated attributes that the object was used with. -/
theorem C145_share (S : StdSort) (us : List (Use F)) (lss : List (List Bytes)) (hu : List.Forall₂ (Use.Reads mk) us lss)
    (s : Bytes) (e : Expr) (h : PolicyText mk s e) (secret : F) (tape : Nat → F) :
    ∃ (o : LSSS F) (p : Policy) (t : TNode) (used fresh : LSSS F) (n : Nat), runUses S {} us = .ok o ∧
      createPolicyTree mk s = .ok (some p) ∧ p.root = some t ∧
      shareSecret false o (some p) secret tape = .ok (used, n) ∧
      shareSecret false {} (some p) secret tape = .ok (fresh, n) ∧
      (used.results = fresh.results ↔ ¬ ((leaves t).map Leaf.label).Nodup ∨
        ∀ a ∈ (leaves t).map Leaf.label, (remembered lss).count a < 2) := by
  obtain ⟨o, ho, hk⟩ := uses_ok (mk := mk) S hu (o := ({} : LSSS F)) (m := []) (fun c => by simp [SMap.find])
  obtain ⟨p, t, d', h1, h2, _, h4, _, _, h7, _⟩ := parsed h
  obtain ⟨hd1, hd2⟩ := parsed_dup h h1 h2
  refine ⟨o, p, t, _, _, _, ho, h1, h2, shareSecret_ok o p t secret tape h2 h4.pos fun l hl _ => h7 l hl,
    shareSecret_ok {} p t secret tape h2 h4.pos fun l hl _ => h7 l hl, ?_⟩
  by_cases hn : ((leaves t).map Leaf.label).Nodup
  · have hdup : p.hasDup = false := by
      cases hh : p.hasDup with
      | false => rfl
      | true => exact absurd hn (hd2.mp hh)
    have e1 : effCount ({} : LSSS F) p = [] := by simp [effCount, hdup]
    have e2 : effCount o p = o.attrCount := by simp [effCount, hdup]
    have hl : ((emit tape t secret 0).map fun x => x.1.label) = (rleaves t).map Leaf.label := by
      rw [← emit_fst tape t secret 0, List.map_map]; rfl
    have hperm := (rleaves_perm t).map Leaf.label
    show SMap.addRows [] _ = SMap.addRows [] _ ↔ _
    rw [e1, e2, rows_same_iff _ _ (by rw [hl]; exact hperm.nodup_iff.mpr hn)]
    constructor
    · intro hx
      refine .inr fun a ha => ?_
      rw [← hperm.mem_iff, ← hl] at ha
      obtain ⟨x, hxm, rfl⟩ := List.mem_map.mp ha
      have := hx x hxm
      rw [hk] at this
      exact Nat.lt_of_not_le this
    · rintro (hc | hx) x hxm
      · exact absurd hn hc
      · rw [hk]
        have hm : x.1.label ∈ (leaves t).map Leaf.label := by
          rw [← hperm.mem_iff, ← hl]; exact List.mem_map.mpr ⟨x, hxm, rfl⟩
        exact Nat.not_le_of_lt (hx _ hm)
  · have hdup : p.hasDup = true := hd2.mpr hn
    have e1 : effCount ({} : LSSS F) p = effCount o p := by simp [effCount, hdup]
    exact ⟨fun _ => .inl hn, fun _ => by rw [e1]⟩

/-- A used object recovers like a new one: always the same answer and the same marks; the same coefficients exactly when an attribute
is repeated in the policy, or no attribute that recovery uses was repeated in the last policy with repeated attributes. -/
theorem C145_recover (S : StdSort) (us : List (Use F)) (lss : List (List Bytes)) (hu : List.Forall₂ (Use.Reads mk) us lss)
    (s : Bytes) (e : Expr) (h : PolicyText mk s e) (A : List Bytes) :
    ∃ (o : LSSS F) (p p' : Policy) (t : TNode) (used fresh : LSSS F), runUses S {} us = .ok o ∧
      createPolicyTree mk s = .ok (some p) ∧ p.root = some t ∧
      recoverCoefficients S false o (some p) A = .ok (sat A t, used, p') ∧
      recoverCoefficients S false {} (some p) A = .ok (sat A t, fresh, p') ∧
      (used.results = fresh.results ↔ ¬ ((leaves t).map Leaf.label).Nodup ∨
        ∀ row ∈ fresh.results, (remembered lss).count row.2.1 < 2) := by
  obtain ⟨o, ho, hk⟩ := uses_ok (mk := mk) S hu (o := ({} : LSSS F)) (m := []) (fun c => by simp [SMap.find])
  obtain ⟨p, t, d', h1, h2, _, h4, h5, h6, h7, _⟩ := parsed h
  obtain ⟨hd1, hd2⟩ := parsed_dup h h1 h2
  have hsame : ∀ (o o' : LSSS F) r r' (u u' : LSSS F) p1 p2, recoverCoefficients S false o (some p) A = .ok (r, u, p1) →
      recoverCoefficients S false o' (some p) A = .ok (r', u', p2) → p1 = p2 := by
    have hone : ∀ (o : LSSS F) r (u : LSSS F) p1, recoverCoefficients S false o (some p) A = .ok (r, u, p1) →
        ∃ t', scan S A t = .ok t' ∧ p1 = { p with root := some t' } := by
      intro o r u p1 hr
      simp only [recoverCoefficients, h2] at hr
      obtain ⟨t', ht', hr⟩ := (Res.bind_eq_ok _ _ _).mp hr
      refine ⟨t', ht', ?_⟩
      split at hr
      · obtain ⟨⟨r0, o0⟩, _, hr⟩ := (Res.bind_eq_ok _ _ _).mp hr
        simp only at hr
        split at hr <;> cases hr <;> rfl
      · cases hr; rfl
    intro o o' r r' u u' p1 p2 ha hb
    obtain ⟨t1, e1, rfl⟩ := hone _ _ _ _ ha
    obtain ⟨t2, e2, rfl⟩ := hone _ _ _ _ hb
    rw [e1] at e2
    cases e2
    rfl
  have hio : ∀ o : LSSS F, IdxOkT (effCount o p) t := fun o l hl _ => h7 l hl
  cases hsat : sat A t with
  | false =>
    obtain ⟨t1, _, hr1⟩ := recover_unsat S o p t A h2 h4 h6 hsat
    obtain ⟨t2, _, hr2⟩ := recover_unsat S ({} : LSSS F) p t A h2 h4 h6 hsat
    have := hsame _ _ _ _ _ _ _ _ hr1 hr2
    rw [← this] at hr2
    exact ⟨o, p, { p with root := some t1 }, t, { results := [], attrCount := effCount o p }, { results := [], attrCount := effCount {} p }, ho, h1, h2,
      by rw [hsat]; exact hr1, by rw [hsat]; exact hr2, ⟨fun _ => .inr (by simp), fun _ => rfl⟩⟩
  | true =>
    obtain ⟨t1, hsc, hr1⟩ := recover_sat S o p t A h2 h4 h6 (.inl h5) (hio o) hsat
    obtain ⟨t2, _, hr2⟩ := recover_sat S ({} : LSSS F) p t A h2 h4 h6 (.inl h5) (hio {}) hsat
    have heq := hsame _ _ _ _ _ _ _ _ hr1 hr2
    have ht12 : t1 = t2 := by simpa using congrArg Policy.root heq
    subst ht12
    refine ⟨o, p, _, t, _, _, ho, h1, h2, by rw [hsat]; exact hr1, by rw [hsat]; exact hr2, ?_⟩
    by_cases hn : ((leaves t).map Leaf.label).Nodup
    · have hdup : p.hasDup = false := by
        cases hh : p.hasDup with
        | false => rfl
        | true => exact absurd hn (hd2.mp hh)
      have e1 : effCount ({} : LSSS F) p = [] := by simp [effCount, hdup]
      have e2 : effCount o p = o.attrCount := by simp [effCount, hdup]
      have hnr : ((recRows (recFull t1 (1 : F) true)).map fun x => x.1.label).Nodup := by
        have hsub := (recRows_keys_sublist (recFull t1 (1 : F) true)).map Leaf.label
        rw [recFull_fst, List.map_map] at hsub
        refine hsub.nodup (((rleaves_perm t1).map Leaf.label).nodup_iff.mpr ?_)
        rw [hsc.same.leaves]; exact hn
      show SMap.addRows [] _ = SMap.addRows [] _ ↔ _
      simp only [e1, e2]
      rw [rows_same_iff _ _ hnr]
      have e0 : (recRows (recFull t1 (1 : F) true)).map (toRow ([] : SMap Nat)) =
          (recRows (recFull t1 (1 : F) true)).map fun x => (x.1.label, (x.1.label, x.2)) := by
        refine List.map_congr_left fun x _ => ?_
        simp [toRow, uniqueLabel, SMap.find]
      rw [e0]
      constructor
      · intro hx
        refine .inr fun row hrow => ?_
        rcases SMap.mem_addRows _ _ _ hrow with hr | hr
        · obtain ⟨x, hxm, rfl⟩ := List.mem_map.mp hr
          have := hx x hxm
          rw [hk] at this
          exact Nat.lt_of_not_le this
        · cases hr
      · rintro (hc | hx) x hxm
        · exact absurd hn hc
        · rw [hk]
          obtain ⟨row, hrow, hfst⟩ := List.mem_map.mp ((addRows_keys
            ((recRows (recFull t1 (1 : F) true)).map fun x => (x.1.label, (x.1.label, x.2))) x.1.label).mpr
            (List.mem_map.mpr ⟨(x.1.label, (x.1.label, x.2)), List.mem_map.mpr ⟨x, hxm, rfl⟩, rfl⟩))
          have hlt := hx row hrow
          rcases SMap.mem_addRows _ _ _ hrow with hr | hr
          · obtain ⟨y, _, rfl⟩ := List.mem_map.mp hr
            simp only at hfst hlt
            rw [hfst] at hlt
            exact Nat.not_le_of_lt hlt
          · cases hr
    · have hdup : p.hasDup = true := hd2.mpr hn
      have e1 : effCount ({} : LSSS F) p = effCount o p := by simp [effCount, hdup]
      exact ⟨fun _ => .inl hn, fun _ => by rw [e1]⟩

/-- Two uses, the first one with a repeated attribute, and a policy that has this attribute. -/
example : remembered [[b!"a", b!"a", b!"a%1"], [b!"b"]] = [b!"a", b!"a", b!"a%1"] ∧
    remembered [[b!"b"], [b!"a", b!"b"]] = [] ∧
    PolicyText mk b!"a or a or a%1" (.or (.or (.leaf b!"a") (.leaf b!"a")) (.leaf b!"a%1")) ∧
    PolicyText mk b!"a < 7 and (b or dept:x)" e2 := ⟨by decide, by decide, pctText, text2⟩

/-! ### Policies -/

/-- One policy object and any sequence of recoveries. If the root is an attribute, every answer is right; otherwise all answers
are that of the first call, so they are right exactly if the formula has the same value for all callers. -/
theorem C145_policy (S : StdSort) (s : Bytes) (e : Expr) (h : PolicyText mk s e) (A : List Bytes) (Bs : List (List Bytes)) :
    ∃ (p : Policy) (t : TNode), createPolicyTree mk s = .ok (some p) ∧ p.root = some t ∧
      (recoverMany (F := F) S p (A :: Bs) = .ok ((A :: Bs).map fun B => sat B t) ↔
        (∃ fl pre lab i, t = .leaf fl pre lab i) ∨ ∀ B ∈ Bs, sat B t = sat A t) := by
  obtain ⟨p, t, d', h1, h2, _, h4, h5, h6, h7, _⟩ := parsed h
  refine ⟨p, t, h1, h2, ?_⟩
  cases t with
  | leaf fl pre lab idx =>
    obtain ⟨i, hi⟩ := Option.isSome_iff_exists.mp (h7 ⟨pre, lab, idx⟩ (by simp [leaves]))
    simp only at hi
    subst hi
    exact ⟨fun _ => .inl ⟨_, _, _, _, rfl⟩, fun _ => C05_single_attribute_partial S p fl pre lab i _ h2⟩
  | gate fl ty thr subs =>
    rw [C05_later_calls_repeat_first_violated S p fl ty thr subs A Bs h2 h4 h5 h6 h7]
    simp only [List.map_cons, Res.ok.injEq, List.cons.injEq, true_and]
    constructor
    · intro he
      refine .inr fun B hB => ?_
      exact ((List.map_inj_left.mp he) B hB).symm
    · rintro (⟨_, _, _, _, hc⟩ | hB)
      · cases hc
      · exact List.map_inj_left.mpr fun B hb => (hB B hb).symm

/-- A formula with a gate at its root. -/
example : PolicyText mk b!"a < 7 and (b or dept:x)" e2 := text2

end Sharing

namespace KeyStore
variable {K : Type}

/-- Whether `checkSecretKey` claims a key under `id` after a call, given what it claimed before (`b`) and which keys there are. -/
def claims (id : Bytes) (s : Spec K) (b : Bool) : Op K → Bool
  | .add n _ .sec => b || n == id
  | .getSec x => b || x == id
  | .getAny x | .validate x => b || (x == id && (s.pub id).isNone)
  | .delete x => if x = id then (s.pub id).isNone && (s.sec id).isNone else b
  | _ => b

/-- The same after a history. -/
def claimsAfter (id : Bytes) : Spec K → Bool → List (Op K) → Bool
  | _, b, [] => b
  | s, b, op :: ops => claimsAfter id (s.step op).2 (claims id s b op) ops

theorem touch_find (m : SMap (Option K)) (x id : Bytes) :
    (SMap.find id (touch m x).2).isSome = ((SMap.find id m).isSome || x == id) := by
  unfold touch
  cases h : SMap.find x m with
  | some v =>
    by_cases hx : x = id
    · subst hx; simp [h]
    · simp [hx]
  | none =>
    simp only [SMap.find_insert]
    by_cases hx : id = x
    · simp [hx]
    · simp [hx, Ne.symm hx]

theorem getKey_find {ks : KeyStore K} {s : Spec K} (h : Rep ks s) (x id : Bytes) :
    (SMap.find id (getKey ks x).2.sec).isSome =
      ((SMap.find id ks.sec).isSome || (x == id && (s.pub id).isNone)) := by
  have h1 := (getPublicKey_spec h x).1
  unfold getKey
  cases e : (getPublicKey ks x).1 with
  | some k =>
    rw [e] at h1
    simp only [e]
    show (SMap.find id ks.sec).isSome = _
    by_cases hx : x = id
    · subst hx; simp [← h1]
    · simp [hx]
  | none =>
    rw [e] at h1
    simp only [e]
    show (SMap.find id (touch ks.sec x).2).isSome = _
    rw [touch_find]
    by_cases hx : x = id
    · subst hx; simp [← h1]
    · rw [beq_eq_false_iff_ne.mpr hx, Bool.false_and]

theorem claims_step {ks : KeyStore K} {s : Spec K} (h : Rep ks s) (id : Bytes) (op : Op K) :
    checkSecretKey (step ks op).2 id = claims id s (checkSecretKey ks id) op := by
  unfold checkSecretKey
  cases op with
  | add n k kind =>
    cases kind with
    | pub => rfl
    | sec =>
      simp only [step, addKey, claims, SMap.find_insert]
      by_cases hx : id = n
      · simp [hx]
      · simp [hx, Ne.symm hx]
    | other => rfl
  | getPub x => rfl
  | getSec x => exact touch_find ks.sec x id
  | getAny x => exact getKey_find h x id
  | check x => rfl
  | validate x => exact getKey_find h x id
  | delete x =>
    obtain ⟨h1, _⟩ := getKey_spec h x
    have h2 := getKey_find h x id
    simp only [step, claims]
    unfold deleteKey
    cases e : (getKey ks x).1 with
    | none =>
      simp only [e]
      rw [e] at h1
      rw [h2]
      by_cases hx : x = id
      · subst hx
        have hp : s.pub x = none := by cases hp : s.pub x <;> simp_all
        have hs : s.sec x = none := by rw [hp] at h1; exact h1.symm
        simp [hp, hs]
      · simp [hx]
    | some k =>
      simp only [e]
      rw [e] at h1
      have : (SMap.find id (SMap.erase x (getKey ks x).2.sec)).isSome =
          if x = id then (s.pub id).isNone && (s.sec id).isNone else (SMap.find id ks.sec).isSome := by
        rw [SMap.find_erase]
        by_cases hx : x = id
        · subst hx
          cases hp : s.pub x <;> cases hs : s.sec x <;> simp_all
        · rw [if_neg (Ne.symm hx), if_neg hx, h2]; simp [hx]
      split <;> exact this

/-- What `checkSecretKey` answers after any history: yes exactly if a secret key was added under the id, or one was looked for
(by `getSecretKey`, or while there was no public key of this id by `getKey`, `validateNewParamsID` or `deleteKey`) since the last
deletion of a key. It is right exactly if that means there is a secret key. -/
theorem C145_check (ops : List (Op K)) (id : Bytes) :
    checkSecretKey (run ({} : KeyStore K) ops).2 id = claimsAfter id {} false ops ∧
    (checkSecretKey (run ({} : KeyStore K) ops).2 id = ((({} : Spec K).run ops).2.sec id).isSome ↔
      (claimsAfter id ({} : Spec K) false ops = true → ((({} : Spec K).run ops).2.sec id).isSome)) := by
  have key : ∀ (ops : List (Op K)) (ks : KeyStore K) (s : Spec K), Rep ks s →
      checkSecretKey (run ks ops).2 id = claimsAfter id s (checkSecretKey ks id) ops := by
    intro ops
    induction ops with
    | nil => intro ks s _; rfl
    | cons op ops ih =>
      intro ks s h
      simp only [run, claimsAfter]
      rw [ih _ _ (step_spec h op).2, claims_step h]
  have hk := key ops {} {} ⟨fun _ => rfl, fun _ => rfl⟩
  have hr := (run_spec ops (ks := ({} : KeyStore K)) (s := {}) ⟨fun _ => rfl, fun _ => rfl⟩).2.2 id
  refine ⟨hk, ?_⟩
  have e0 : checkSecretKey ({} : KeyStore K) id = false := rfl
  rw [e0] at hk
  rw [← hk]
  constructor
  · intro h1 h2; rw [← h1, h2]
  · intro h1
    cases h2 : checkSecretKey (run ({} : KeyStore K) ops).2 id with
    | true => rw [h1 h2]
    | false =>
      rw [← hr]
      have : SMap.find id (run ({} : KeyStore K) ops).2.sec = none := by simpa [checkSecretKey] using h2
      rw [this]; rfl

/-- Deleting a key that does not exist leaves a claim, deleting one that exists takes it away. -/
example : claimsAfter b!"a" ({} : Spec Nat) false [.delete b!"a"] = true ∧
    claimsAfter b!"a" ({} : Spec Nat) false [.add b!"a" 1 .sec, .delete b!"a"] = false := by decide

end KeyStore

/-! ### Containers -/

/-- Looking up a component leaves the container as it was exactly when it has an entry of this name. -/
theorem C145_lookup {G1 G2 GT : Type} (c : Container G1 G2 GT) (name : Bytes) :
    (Container.getComponent c name).2 = c ↔ (SMap.find name c).isSome := by
  unfold Container.getComponent
  cases h : SMap.find name c with
  | none =>
    simp only [Option.isSome_none, Bool.false_eq_true, iff_false]
    intro he
    have := congrArg (SMap.find name) he
    rw [SMap.find_insert, if_pos rfl, h] at this
    cases this
  | some o => cases o <;> simp

example : (SMap.find b!"a" ([] : Container Nat Nat Nat)).isSome = false := rfl

end Abe
