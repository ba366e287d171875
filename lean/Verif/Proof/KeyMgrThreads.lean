import Verif.Model.KeyMgrThreads
import Verif.Proof.Threads
import Verif.Props.KeyMgr
/-!
# The programs of the key manager alone do what the commands do
-/
set_option linter.unusedSimpArgs false
set_option autoImplicit false
namespace Abe.KeyMgr
open Conc (Prog)
variable {G1 G2 GT : Type}

/-- A loop with early exit. -/
def scan {α : Type} (step : α → Bytes × Meta → Bool × α) : α → List (Bytes × Meta) → α
  | a, [] => a
  | a, p :: ps => if (step a p).1 then scan step (step a p).2 ps else (step a p).2

theorem alone_check {α : Type} (o : KmObj) (f : KeyMgr G1 G2 GT → α) (s : KeyMgr G1 G2 GT) :
    (Prog.check o f).alone s = (f s, s) := rfl
theorem alone_change {α : Type} (o : KmObj) (u : KeyMgr G1 G2 GT → KeyMgr G1 G2 GT) (f : KeyMgr G1 G2 GT → α)
    (s : KeyMgr G1 G2 GT) : (Prog.change o u f).alone s = (f s, u s) := rfl
theorem alone_ret {α : Type} (a : α) (s : KeyMgr G1 G2 GT) : (Prog.ret a : KmProg G1 G2 GT α).alone s = (a, s) := rfl

theorem scanP_alone {α : Type} (step : α → Bytes × Meta → Bool × α) (s : KeyMgr G1 G2 GT) : ∀ (n i : Nat) (a : α),
    s.keys.length = i + n → (scanP step n i a).alone s = (scan step a (s.keys.drop i), s)
  | 0, i, a, h => by
    rw [List.drop_eq_nil_of_le (by omega)]
    rfl
  | n + 1, i, a, h => by
    have hi : i < s.keys.length := by omega
    rw [List.drop_eq_getElem_cons hi]
    simp only [scanP, Prog.alone_bind, alone_check, List.getElem?_eq_getElem hi, scan]
    split
    · exact scanP_alone step s n (i + 1) _ (by omega)
    · rfl

theorem forKeysP_alone {α : Type} (step : α → Bytes × Meta → Bool × α) (a : α) (s : KeyMgr G1 G2 GT) :
    (forKeysP step a).alone s = (scan step a s.keys, s) := by
  simp only [forKeysP, Prog.alone_bind, alone_check]
  rw [scanP_alone step s _ 0 a (by omega), List.drop_zero]

theorem scan_dup (u new : Bytes) (inp : FInput) : ∀ keys : SMap Meta,
    scan (dupStep u new inp) (.ok false) keys = findDup u new inp keys
  | [] => rfl
  | (id, m) :: keys => by
    have ih := scan_dup u new inp keys
    rcases hc : m.input.compact with s | e | _ | _
    · by_cases h : s = new ∧ FInput.sameType inp m.input = true ∧ u = m.userId
      · simp only [scan, dupStep, findDup, hc, Res.ok_bind, if_pos h]
        rfl
      · simp only [scan, dupStep, findDup, hc, Res.ok_bind, if_neg h, if_true]
        exact ih
    all_goals
      simp only [scan, dupStep, findDup, hc]
      rfl

theorem scan_filter (u : Bytes) (f : FInput) : ∀ (keys : SMap Meta) (acc : List Bytes),
    scan (filterStep u f) acc keys =
      acc ++ (keys.filter fun p => FInput.opposite p.2.input f && decide (u = p.2.userId)).map Prod.fst
  | [], acc => by simp [scan]
  | (id, m) :: keys, acc => by
    have ih := scan_filter u f keys
    simp only [scan, filterStep, if_true]
    by_cases h : FInput.opposite m.input f = true ∧ u = m.userId
    · rw [if_pos h, ih, List.filter_cons_of_pos (by simp [h])]
      simp
    · rw [if_neg h, ih, List.filter_cons_of_neg (by simpa using h)]

theorem scan_ids (u : Bytes) (now : Nat) : ∀ (keys : SMap Meta) (acc : List Bytes),
    scan (idsStep u now) acc keys =
      acc ++ (keys.filter fun p => if u = p.2.userId then decide (now = 0 ∨ p.2.expires ≤ now)
        else decide (0 < now ∧ p.2.expires ≤ now)).map Prod.fst
  | [], acc => by simp [scan]
  | (id, m) :: keys, acc => by
    have ih := scan_ids u now keys
    simp only [scan, idsStep, if_true]
    by_cases h : (if u = m.userId then decide (now = 0 ∨ m.expires ≤ now) else decide (0 < now ∧ m.expires ≤ now)) = true
    · rw [ih, List.filter_cons, if_pos h]
      by_cases hu : u = m.userId
      · rw [if_pos hu] at h
        rw [if_pos hu, if_pos (by simpa using h)]
        simp
      · rw [if_neg hu] at h
        rw [if_neg hu, if_pos (by simpa using h)]
        simp
    · rw [ih, List.filter_cons, if_neg h]
      by_cases hu : u = m.userId
      · rw [if_pos hu] at h
        rw [if_pos hu, if_neg (by simpa using h)]
      · rw [if_neg hu] at h
        rw [if_neg hu, if_neg (by simpa using h)]

/-- What is left of `storeP` after the erasure. -/
theorem storeP_tail (env : KmEnv G1 G2 GT) (u id blob : Bytes) (x : Nat) (c : Bool) (rnd : Bytes) (k1 : KeyMgr G1 G2 GT) :
    Prog.alone (match parseBlob env blob rnd with
      | .ok .none => (.ret (.ok false) : KmProg G1 G2 GT (Res Bool))
      | .ok (some (sid, inp)) =>
        match inp.compact with
        | .ok new => (forKeysP (dupStep u new inp) (.ok false)).bind fun r =>
          match r with
          | .ok true => .ret (.ok false)
          | .ok false => Prog.change .keys
              (fun s => { s with keys := SMap.insert id ⟨u, blob, x, sid, inp, c⟩ s.keys }) fun _ => .ok true
          | .throw e => .ret (.throw e)
          | .ub => .ret .ub
          | .abort => .ret .abort
        | .throw e => .ret (.throw e)
        | .ub => .ret .ub
        | .abort => .ret .abort
      | .throw e => .ret (.throw e)
      | .ub => .ret .ub
      | .abort => .ret .abort) k1 =
    match parseBlob env blob rnd with
    | .ok none => (.ok false, k1)
    | .ok (some (sid, inp)) =>
      match (do let new ← inp.compact; findDup u new inp k1.keys) with
      | .ok true => (.ok false, k1)
      | .ok false => (.ok true, { k1 with keys := SMap.insert id ⟨u, blob, x, sid, inp, c⟩ k1.keys })
      | .throw e => (.throw e, k1)
      | .ub => (.ub, k1)
      | .abort => (.abort, k1)
    | .throw e => (.throw e, k1)
    | .ub => (.ub, k1)
    | .abort => (.abort, k1) := by
  cases parseBlob env blob rnd with
  | ok o =>
    cases o with
    | none => rfl
    | some r =>
      obtain ⟨sid, inp⟩ := r
      simp only
      cases inp.compact with
      | ok new =>
        simp only [Prog.alone_bind, forKeysP_alone, scan_dup, Res.ok_bind]
        cases findDup u new inp k1.keys with
        | ok b => cases b <;> rfl
        | _ => rfl
      | _ => rfl
  | _ => rfl

theorem storeP_alone (env : KmEnv G1 G2 GT) (u id blob : Bytes) (x : Nat) (c : Bool) (rnd : Bytes) (km : KeyMgr G1 G2 GT) :
    (storeP env u id blob x c rnd).alone km = store env km u id blob x c rnd := by
  unfold storeP store
  by_cases h : u = [] ∧ env.ndebug = false
  · rw [if_pos h, if_pos h]; rfl
  · rw [if_neg h, if_neg h, Prog.alone_bind, alone_check, Prog.alone_bind]
    have he : (Prog.alone (if (SMap.find id km.keys).isSome = true then
        Prog.change KmObj.keys (fun s : KeyMgr G1 G2 GT => { s with keys := SMap.erase id s.keys }) fun _ => ()
          else .ret ()) km).2 = { km with keys := SMap.erase id km.keys } := by
      cases hf : SMap.find id km.keys with
      | none =>
        rw [SMap.erase_absent hf]
        rfl
      | some m => rfl
    simp only
    rw [he]
    exact storeP_tail env u id blob x c rnd _

theorem storePrefixP_alone (env : KmEnv G1 G2 GT) (u pre blob : Bytes) (x : Nat) (c : Bool) (rnd : Bytes) (km : KeyMgr G1 G2 GT) :
    (storePrefixP env u pre blob x c rnd).alone km = storePrefix env km u pre blob x c rnd := by
  unfold storePrefixP storePrefix
  have he : (Prog.alone (if (SMap.find u km.counter).isSome = true then .ret () else
        Prog.change KmObj.counter (fun s : KeyMgr G1 G2 GT => { s with counter := SMap.insert u 0 s.counter })
        fun _ => ()) km).2 =
      (if (SMap.find u km.counter).isSome then km else { km with counter := SMap.insert u 0 km.counter }) := by
    split <;> rfl
  rw [Prog.alone_bind, alone_check, Prog.alone_bind]
  simp only
  rw [he]
  generalize (if (SMap.find u km.counter).isSome then km else { km with counter := SMap.insert u 0 km.counter }) = k0
  rw [Prog.alone_bind, alone_change, Prog.alone_bind, storeP_alone]
  simp only [id]
  rcases hr : store env k0 u (pre ++ natDec (count k0 u)) blob x c rnd with ⟨r, k1⟩
  simp only
  cases r with
  | ok b => cases b <;> rfl
  | _ => rfl

theorem getKeyP_alone (u id : Bytes) (km : KeyMgr G1 G2 GT) : (getKeyP u id).alone km = (getKey km u id, km) := by
  unfold getKeyP
  rw [Prog.alone_bind, alone_check]
  simp only
  by_cases hf : (SMap.find id km.keys).isSome = true
  · rw [if_pos hf]
    rfl
  · rw [if_neg hf]
    have : SMap.find id km.keys = none := by simpa using hf
    simp only [alone_ret, getKey, this]

theorem searchLoopP_alone (env : KmEnv G1 G2 GT) (eff : Bool) : ∀ (ids : List Bytes) (km : KeyMgr G1 G2 GT) (f : FInput)
    (acc : List (Bytes × Int)),
    ((searchLoopP env eff ids f acc).alone km).1 =
      (searchLoop env eff ids km f acc >>= fun r => .ok (r.1, r.2.1, r.2.2.2)) ∧
    ∀ a b km' f', searchLoop env eff ids km f acc = .ok (a, b, km', f') → ((searchLoopP env eff ids f acc).alone km).2 = km'
  | [], km, f, acc => by
    refine ⟨rfl, ?_⟩
    intro a b km' f' h
    simp only [searchLoop, Res.ok.injEq, Prod.mk.injEq] at h
    exact h.2.2.1
  | id :: ids, km, f, acc => by
    simp only [searchLoopP, searchLoop, Prog.alone_bind, alone_check]
    cases SMap.find id km.keys with
    | none =>
      refine ⟨?_, ?_⟩
      · simp only [alone_ret]
        split <;> rfl
      · intro a b km' f' h
        revert h
        simp only
        split <;> simp
    | some m =>
      simp only
      cases testAKey env.sort m f with
      | ok r =>
        obtain ⟨r, m', f'⟩ := r
        simp only [Res.ok_bind, Prog.alone_bind, alone_change]
        by_cases h1 : r.1 = true
        · rw [if_pos h1, if_pos h1]
          cases eff with
          | true => exact searchLoopP_alone env true ids _ f' _
          | false =>
            refine ⟨rfl, ?_⟩
            intro a b km' f'' h
            simp only [if_false, Bool.false_eq_true, Res.ok.injEq, Prod.mk.injEq] at h
            exact h.2.2.1
        · rw [if_neg h1, if_neg h1]
          exact searchLoopP_alone env eff ids _ f' _
      | throw e => exact ⟨rfl, fun a b km' f' h => by simp at h⟩
      | ub => exact ⟨rfl, fun a b km' f' h => by simp at h⟩
      | abort => exact ⟨rfl, fun a b km' f' h => by simp at h⟩

theorem searchP_null (env : KmEnv G1 G2 GT) (q : Query) (km : KeyMgr G1 G2 GT) :
    (searchP env q .null).alone km = (.throw .invalidInput, km) := rfl

theorem searchP_alone (env : KmEnv G1 G2 GT) (q : Query) (f : FInput) (km : KeyMgr G1 G2 GT) :
    ((searchP env q f).alone km).1 = (search env km q f >>= fun r => .ok (r.1, r.2.2)) ∧
    ∀ id km' f', search env km q f = .ok (id, km', f') → ((searchP env q f).alone km).2 = km' := by
  by_cases hf : f = .null
  · subst hf
    exact ⟨rfl, fun id km' f' h => by simp [search] at h⟩
  · have hids : ((if q.userId = [] then .ret [] else forKeysP (filterStep q.userId f) []) : KmProg G1 G2 GT (List Bytes)).alone km =
        (filterKeys km q.userId f, km) := by
      unfold filterKeys
      split
      · rfl
      · rw [forKeysP_alone, scan_filter, List.nil_append]
    have e1 : searchP env q f = (if q.userId = [] then .ret [] else forKeysP (filterStep q.userId f) []).bind fun ids =>
        (searchLoopP env q.efficient ids f []).bind fun r =>
        match r with
        | .ok (some id, _, f') => .ret (.ok (id, f'))
        | .ok (.none, acc, f') => .ret (match acc with
          | [] => .ok ([], f')
          | _ => match env.refs.fn acc with
            | (id, _) :: _ => .ok (id, f')
            | [] => .ub)
        | .throw e => .ret (.throw e)
        | .ub => .ret .ub
        | .abort => .ret .abort := by
      cases f with
      | null => exact absurd rfl hf
      | attrs l => rfl
      | policy p => rfl
    have e2 : search env km q f = (searchLoop env q.efficient (filterKeys km q.userId f) km f [] >>= fun r =>
        match r.1 with
        | some id => .ok (id, r.2.2.1, r.2.2.2)
        | none => match r.2.1 with
          | [] => .ok ([], r.2.2.1, r.2.2.2)
          | _ => match env.refs.fn r.2.1 with
            | (id, _) :: _ => .ok (id, r.2.2.1, r.2.2.2)
            | [] => .ub) := by
      cases f with
      | null => exact absurd rfl hf
      | attrs l => rfl
      | policy p => rfl
    rw [e1, e2]
    simp only [Prog.alone_bind, hids]
    have h := searchLoopP_alone env q.efficient (filterKeys km q.userId f) km f []
    rcases hp : (searchLoopP env q.efficient (filterKeys km q.userId f) f []).alone km with ⟨r, k1⟩
    rw [hp] at h
    cases hs : searchLoop env q.efficient (filterKeys km q.userId f) km f [] with
    | ok v =>
      obtain ⟨a, b, km', f'⟩ := v
      rw [hs] at h
      simp only [Res.ok_bind] at h
      obtain ⟨rfl, h2⟩ := h
      have hk := h2 a b km' f' rfl
      subst hk
      cases a with
      | some id =>
        simp only [Res.ok_bind, alone_ret]
        refine ⟨trivial, ?_⟩
        intro id' k2 f2 h
        simp only [Res.ok.injEq, Prod.mk.injEq] at h
        exact h.2.1
      | none =>
        simp only [Res.ok_bind, alone_ret]
        cases b with
        | nil =>
          refine ⟨rfl, ?_⟩
          intro id' k2 f2 h
          simp only [Res.ok.injEq, Prod.mk.injEq] at h
          exact h.2.1
        | cons y ys =>
          simp only
          cases env.refs.fn (y :: ys) with
          | nil => exact ⟨rfl, fun id' k2 f2 h => by simp at h⟩
          | cons z zs =>
            obtain ⟨z1, z2⟩ := z
            refine ⟨rfl, ?_⟩
            intro id' k2 f2 h
            simp only [Res.ok.injEq, Prod.mk.injEq] at h
            exact h.2.1
    | throw e => rw [hs] at h; obtain ⟨rfl, -⟩ := h; exact ⟨rfl, fun id' k2 f2 h => by simp at h⟩
    | ub => rw [hs] at h; obtain ⟨rfl, -⟩ := h; exact ⟨rfl, fun id' k2 f2 h => by simp at h⟩
    | abort => rw [hs] at h; obtain ⟨rfl, -⟩ := h; exact ⟨rfl, fun id' k2 f2 h => by simp at h⟩

theorem deleteLoopP_alone : ∀ (ids : List Bytes) (km : KeyMgr G1 G2 GT),
    (deleteLoopP ids).alone km = ((), { km with base := ids.foldl (fun b id => (b.deleteKey id).2) km.base })
  | [], km => rfl
  | id :: ids, km => by
    simp only [deleteLoopP, Prog.alone_bind, alone_change, List.foldl_cons]
    rw [deleteLoopP_alone ids]

theorem deleteP_alone (q : Query) (km : KeyMgr G1 G2 GT) : (deleteP q).alone km = delete km q := by
  unfold deleteP delete
  simp only [Prog.alone_bind, forKeysP_alone, scan_ids, List.nil_append]
  have hids : (km.keys.filter fun p => if q.userId = p.2.userId then decide (q.now = 0 ∨ p.2.expires ≤ q.now)
        else decide (0 < q.now ∧ p.2.expires ≤ q.now)).map Prod.fst = keyIds km q.userId q.now := rfl
  rw [hids]
  by_cases h1 : 0 < q.now
  · rw [if_pos h1, if_neg (by omega), if_pos h1]
    simp only [Prog.alone_bind, deleteLoopP_alone, alone_ret]
  · rw [if_neg h1]
    by_cases h2 : q.userId = []
    · rw [if_neg (by simpa using h2), if_pos ⟨by omega, h2⟩]
      rfl
    · rw [if_pos h2, if_neg (by simp [h2]), if_neg h1]
      simp only [Prog.alone_bind, deleteLoopP_alone, alone_ret, alone_change]

/-! ### No command takes the mutex twice -/

theorem plain_check {α : Type} (o : KmObj) (f : KeyMgr G1 G2 GT → α) : (Prog.check o f).Plain := fun _ => trivial
theorem plain_change {α : Type} (o : KmObj) (u : KeyMgr G1 G2 GT → KeyMgr G1 G2 GT) (f : KeyMgr G1 G2 GT → α) :
    (Prog.change o u f).Plain := fun _ => trivial
theorem plain_ret {α : Type} (a : α) : (Prog.ret a : KmProg G1 G2 GT α).Plain := trivial

theorem scanP_plain {α : Type} (step : α → Bytes × Meta → Bool × α) : ∀ (n i : Nat) (a : α),
    (scanP step n i a : KmProg G1 G2 GT α).Plain
  | 0, _, _ => trivial
  | n + 1, i, a => by
    refine .bind (plain_check _ _) fun e => ?_
    cases e with
    | none => trivial
    | some p =>
      simp only
      split
      · exact scanP_plain step n _ _
      · trivial

theorem forKeysP_plain {α : Type} (step : α → Bytes × Meta → Bool × α) (a : α) : (forKeysP step a : KmProg G1 G2 GT α).Plain :=
  .bind (plain_check _ _) fun _ => scanP_plain _ _ _ _

theorem storeP_plain (env : KmEnv G1 G2 GT) (u id blob : Bytes) (x : Nat) (c : Bool) (rnd : Bytes) :
    (storeP env u id blob x c rnd).Plain := by
  unfold storeP
  split
  · trivial
  · refine .bind (plain_check _ _) fun e => .bind ?_ fun _ => ?_
    · split
      · exact plain_change _ _ _
      · trivial
    · split
      · trivial
      · split
        · refine .bind (forKeysP_plain _ _) fun r => ?_
          split
          · trivial
          · exact plain_change _ _ _
          all_goals trivial
        all_goals trivial
      all_goals trivial

theorem storePrefixP_plain (env : KmEnv G1 G2 GT) (u pre blob : Bytes) (x : Nat) (c : Bool) (rnd : Bytes) :
    (storePrefixP env u pre blob x c rnd).Plain := by
  unfold storePrefixP
  refine .bind (plain_check _ _) fun e => .bind ?_ fun _ => .bind (plain_change _ _ _) fun n =>
    .bind (storeP_plain _ _ _ _ _ _ _) fun r => ?_
  · split
    · trivial
    · exact plain_change _ _ _
  · split
    · exact .bind (plain_change _ _ _) fun _ => plain_change _ _ _
    all_goals trivial

theorem getKeyP_plain (u id : Bytes) : (getKeyP u id : KmProg G1 G2 GT _).Plain := by
  refine .bind (plain_check _ _) fun e => ?_
  split
  · exact plain_change _ _ _
  · trivial

theorem searchLoopP_plain (env : KmEnv G1 G2 GT) (eff : Bool) : ∀ (ids : List Bytes) (f : FInput) (acc : List (Bytes × Int)),
    (searchLoopP env eff ids f acc).Plain
  | [], _, _ => trivial
  | id :: ids, f, acc => by
    unfold searchLoopP
    refine .bind (plain_check _ _) fun e => ?_
    cases e with
    | none => trivial
    | some m =>
      simp only
      split
      · refine .bind (plain_change _ _ _) fun _ => ?_
        split
        · split
          · exact searchLoopP_plain env eff ids _ _
          · trivial
        · exact searchLoopP_plain env eff ids _ _
      all_goals trivial

theorem searchP_plain (env : KmEnv G1 G2 GT) (q : Query) (f : FInput) : (searchP env q f).Plain := by
  unfold searchP
  split
  · trivial
  · refine .bind ?_ fun ids => .bind (searchLoopP_plain _ _ _ _ _) fun r => ?_
    · split
      · trivial
      · exact forKeysP_plain _ _
    · split <;> trivial

theorem deleteLoopP_plain : ∀ ids : List Bytes, (deleteLoopP ids : KmProg G1 G2 GT Unit).Plain
  | [] => trivial
  | _ :: ids => .bind (plain_change _ _ _) fun _ => deleteLoopP_plain ids

theorem deleteP_plain (q : Query) : (deleteP q : KmProg G1 G2 GT _).Plain := by
  refine .bind (forKeysP_plain _ _) fun ids => ?_
  split
  · exact .bind (deleteLoopP_plain _) fun _ => trivial
  · split
    · exact .bind (plain_change _ _ _) fun _ => .bind (deleteLoopP_plain _) fun _ => trivial
    · trivial

theorem locked_guarded (env : KmEnv G1 G2 GT) {k : KmCall} (h : k.Locked) :
    ∃ b : KmProg G1 G2 GT KmRes, b.Plain ∧ prog env k = b.guarded := by
  cases k with
  | storePrefix u pre blob x c rnd =>
    exact ⟨(storePrefixP env u pre blob x c rnd).bind fun r => .ret (.id r),
      .bind (storePrefixP_plain _ _ _ _ _ _ _) fun _ => trivial, rfl⟩
  | get u id => exact ⟨(getKeyP u id).bind fun r => .ret (.key r), .bind (getKeyP_plain _ _) fun _ => trivial, rfl⟩
  | search q f => exact ⟨(searchP env q f).bind fun r => .ret (.found r), .bind (searchP_plain _ _ _) fun _ => trivial, rfl⟩
  | delete q => exact ⟨(deleteP q).bind fun r => .ret (.ids r), .bind (deleteP_plain _) fun _ => trivial, rfl⟩
  | _ => exact h.elim

end Abe.KeyMgr
