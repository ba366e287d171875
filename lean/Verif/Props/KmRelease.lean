import Verif.Props.KeyMgr

set_option linter.unusedSimpArgs false
set_option linter.unusedSectionVars false
set_option autoImplicit false

/-! C169: the key manager compiled with and without assertions (src/abe/zkeymgr.cpp). -/

namespace Abe.KeyMgr
variable {G1 G2 GT : Type}

/-- The same surroundings with assertions compiled out. -/
def released (env : KmEnv G1 G2 GT) : KmEnv G1 G2 GT := { env with ndebug := true }

/-- The same surroundings with assertions compiled in. -/
def asserted (env : KmEnv G1 G2 GT) : KmEnv G1 G2 GT := { env with ndebug := false }

/-- One command of the key manager (include/abe/zkeymgr.h:74-112). -/
inductive Cmd where
  | store (user id blob : Bytes) (expires : Nat) (cache : Bool) (rnd : Bytes)
  | storePrefix (user pre blob : Bytes) (expires : Nat) (cache : Bool) (rnd : Bytes)
  | count (user : Bytes)
  | passphrase (program user text : Bytes)
  | get (user id : Bytes)
  | search (q : Query) (f : FInput)
  | delete (q : Query)

/-- What a command answers. -/
inductive Answer where
  | flag (b : Res Bool)
  | id (b : Res Bytes)
  | number (n : Nat)
  | pair (b : Res (Bytes × Bytes))
  | found (b : Res (Bytes × FInput))
  | ids (b : Res (List Bytes))
  | done

/-- One command: what it answers, and the state afterwards. A search that does not return leaves the entries of the map; the
flags inside the policies it had tested are taken to be those before it. -/
def Cmd.run (env : KmEnv G1 G2 GT) (km : KeyMgr G1 G2 GT) : Cmd → Answer × KeyMgr G1 G2 GT
  | .store u id blob x c rnd => let r := KeyMgr.store env km u id blob x c rnd; (.flag r.1, r.2)
  | .storePrefix u pre blob x c rnd => let r := KeyMgr.storePrefix env km u pre blob x c rnd; (.id r.1, r.2)
  | .count u => let r := userKeyCount km u; (.number r.1, r.2)
  | .passphrase p u t => (.done, setPassphrase km p u t)
  | .get u id => (.pair (getKey km u id), km)
  | .search q f =>
    match KeyMgr.search env km q f with
    | .ok (id, km', f') => (.found (.ok (id, f')), km')
    | .throw e => (.found (.throw e), km)
    | .ub => (.found .ub, km)
    | .abort => (.found .abort, km)
  | .delete q => let r := KeyMgr.delete km q; (.ids r.1, r.2)

/-- The answers of a sequence of commands and the last state. -/
def runAll (env : KmEnv G1 G2 GT) : List Cmd → KeyMgr G1 G2 GT → List Answer × KeyMgr G1 G2 GT
  | [], km => ([], km)
  | c :: cs, km => let r := c.run env km; let s := runAll env cs r.2; (r.1 :: s.1, s.2)

/-- The user a command stores a key for, if it stores one. -/
def Cmd.owner : Cmd → Option Bytes
  | .store u .. | .storePrefix u .. => some u
  | _ => none

theorem searchLoop_build (env : KmEnv G1 G2 GT) (eff : Bool) : ∀ (ids : List Bytes) (km : KeyMgr G1 G2 GT) (f : FInput)
    (acc : List (Bytes × Int)), (∀ id ∈ ids, (SMap.find id km.keys).isSome = true) →
    searchLoop (released env) eff ids km f acc = searchLoop (asserted env) eff ids km f acc
  | [], _, _, _, _ => rfl
  | id :: ids, km, f, acc, h => by
    have h0 := h id (by simp)
    obtain ⟨m, hm⟩ := Option.isSome_iff_exists.mp h0
    simp only [searchLoop, hm]
    show (testAKey env.sort m f >>= _) = (testAKey env.sort m f >>= _)
    congr 1
    funext ⟨r, m', f'⟩
    have hk : ∀ j ∈ ids, (SMap.find j ({ km with keys := SMap.insert id m' km.keys } : KeyMgr G1 G2 GT).keys).isSome = true := by
      intro j hj
      show (SMap.find j (SMap.insert id m' km.keys)).isSome = true
      rw [SMap.find_insert]
      split
      · rfl
      · exact h j (by simp [hj])
    simp only [searchLoop_build env eff ids _ f' _ hk]

theorem filterKeys_present (km : KeyMgr G1 G2 GT) (u : Bytes) (f : FInput) :
    ∀ id ∈ filterKeys km u f, (SMap.find id km.keys).isSome = true := by
  intro id h
  unfold filterKeys at h
  split at h
  · simp at h
  · obtain ⟨p, hp, rfl⟩ := List.mem_map.mp h
    have hp := (List.mem_filter.mp hp).1
    generalize km.keys = l at hp
    induction l with
    | nil => simp at hp
    | cons e l ih =>
      obtain ⟨k, v⟩ := e
      simp only [SMap.find]
      split
      · rfl
      · rename_i hne
        rcases List.mem_cons.mp hp with rfl | hp
        · exact absurd rfl hne
        · exact ih hp

/-- **C169** (searching). For every state of the key manager, whatever its entries, every query and every input, the search
answers the same with and without assertions: the assertion inside it never fails. -/
theorem C169_search (env : KmEnv G1 G2 GT) (km : KeyMgr G1 G2 GT) (q : Query) (f : FInput) :
    search (released env) km q f = search (asserted env) km q f := by
  unfold search
  rw [searchLoop_build env q.efficient _ km f [] (filterKeys_present km q.userId f)]
  rfl

theorem store_build (env : KmEnv G1 G2 GT) (km : KeyMgr G1 G2 GT) (u id blob : Bytes) (x : Nat) (c : Bool) (rnd : Bytes)
    (h : u ≠ []) : store (released env) km u id blob x c rnd = store (asserted env) km u id blob x c rnd := by
  unfold store
  rw [if_neg (fun e => h e.1), if_neg (fun e => h e.1)]
  rfl

theorem run_build (env : KmEnv G1 G2 GT) (km : KeyMgr G1 G2 GT) (c : Cmd) (h : c.owner ≠ some []) :
    c.run (released env) km = c.run (asserted env) km := by
  cases c with
  | store u id blob x c rnd =>
    have hu : u ≠ [] := fun e => h (by simp [Cmd.owner, e])
    simp only [Cmd.run, store_build env km u id blob x c rnd hu]
  | storePrefix u pre blob x c rnd =>
    have hu : u ≠ [] := fun e => h (by simp [Cmd.owner, e])
    simp only [Cmd.run, storePrefix, store_build env _ u _ blob x c rnd hu]
  | search q f => simp only [Cmd.run, C169_search]
  | _ => rfl

/-- **C169** (histories). Any sequence of commands from any state in which no key is stored for the empty user name gives the
same answers and leaves the same state with and without assertions. -/
theorem C169_histories (env : KmEnv G1 G2 GT) (cs : List Cmd) (h : ∀ c ∈ cs, c.owner ≠ some []) :
    ∀ km, runAll (released env) cs km = runAll (asserted env) cs km := by
  induction cs with
  | nil => intro km; rfl
  | cons c cs ih =>
    intro km
    simp only [runAll, run_build env km c (h c (by simp)), ih (fun d hd => h d (by simp [hd]))]

/-- **C169** (the empty user name, with assertions). Storing for it stops the program before the entry of that id is
touched. -/
theorem C169_checked (env : KmEnv G1 G2 GT) (km : KeyMgr G1 G2 GT) (id pre blob : Bytes) (x : Nat) (c : Bool) (rnd : Bytes) :
    store (asserted env) km [] id blob x c rnd = (.abort, km) ∧
    (storePrefix (asserted env) km [] pre blob x c rnd).1 = .abort ∧
    (storePrefix (asserted env) km [] pre blob x c rnd).2.keys = km.keys := by
  have e : ∀ (km : KeyMgr G1 G2 GT) id, store (asserted env) km [] id blob x c rnd = (.abort, km) := fun km id => by
    unfold store; rw [if_pos ⟨rfl, rfl⟩]
  refine ⟨e km id, ?_, ?_⟩
  · simp only [storePrefix, e]
  · simp only [storePrefix, e]; split <;> rfl

/-- **C169** (the empty user name, without assertions). Storing for it answers what storing for any other user answers when
no entry belongs to either; the key stored is handed out under its id, but no search for the empty name ever answers it, and
asking to delete the keys of the empty name raises. -/
theorem C169_released (env : KmEnv G1 G2 GT) (km : KeyMgr G1 G2 GT) (id blob : Bytes) (x : Nat) (c : Bool) (rnd : Bytes) :
    (∀ u, (∀ i m, (i, m) ∈ km.keys → m.userId ≠ [] ∧ m.userId ≠ u) →
      (store (released env) km [] id blob x c rnd).1 = (store (released env) km u id blob x c rnd).1) ∧
    (∀ km', store (released env) km [] id blob x c rnd = (.ok true, km') →
      (∃ s, getKey km' [] id = .ok (s, blob)) ∧
      (∀ eff now f, f ≠ .null → search (released env) km' ⟨eff, now, []⟩ f = .ok ([], km', f)) ∧
      (∀ eff, (delete km' ⟨eff, 0, []⟩).1 = .throw .runtimeError)) := by
  have nb : ∀ u : Bytes, ¬ (u = [] ∧ (released env).ndebug = false) := by simp [released]
  constructor
  · intro u hu
    unfold store
    rw [if_neg (nb []), if_neg (nb u)]
    dsimp only
    cases hp : parseBlob (released env) blob rnd with
    | ok o =>
      cases o with
      | none => rfl
      | some p =>
        obtain ⟨sid, inp⟩ := p
        have hd : ∀ (l : SMap Meta) new, (∀ i m, (i, m) ∈ l → m.userId ≠ [] ∧ m.userId ≠ u) →
            findDup [] new inp l = findDup u new inp l := by
          intro l new hl
          induction l with
          | nil => rfl
          | cons e l ih =>
            obtain ⟨k, m⟩ := e
            have := hl k m (by simp)
            simp only [findDup, ih (fun i m h => hl i m (by simp [h]))]
            have e1 : ¬ ([] = m.userId) := fun e => this.1 e.symm
            have e2 : ¬ (u = m.userId) := fun e => this.2 e.symm
            simp only [e1, e2, and_false]
        have hl : ∀ i m, (i, m) ∈ SMap.erase id km.keys → m.userId ≠ [] ∧ m.userId ≠ u :=
          fun i m h => hu i m (by unfold SMap.erase at h; exact (List.mem_filter.mp h).1)
        dsimp only
        have : (inp.compact >>= fun new => findDup [] new inp (SMap.erase id km.keys)) =
            (inp.compact >>= fun new => findDup u new inp (SMap.erase id km.keys)) := by
          congr 1; funext new; exact hd _ new hl
        rw [this]
        split <;> rfl
    | throw e => rfl
    | ub => rfl
    | abort => rfl
  · intro km' h
    refine ⟨?_, ?_, ?_⟩
    · unfold store at h
      rw [if_neg (nb [])] at h
      dsimp only at h
      split at h
      · simp at h
      · rename_i sid inp hp
        split at h
        · simp at h
        · rename_i hd
          simp only [Prod.mk.injEq, true_and] at h
          obtain ⟨new, hn, -⟩ := (Res.bind_eq_ok _ _ _).mp hd
          subst h
          refine ⟨new, ?_⟩
          simp only [getKey, SMap.find_insert, if_true, hn]
          rfl
        all_goals simp at h
      all_goals simp at h
    · intro eff now f hf
      cases f with
      | null => exact absurd rfl hf
      | attrs l => simp [search, filterKeys, searchLoop, Res.ok_bind]
      | policy p => simp [search, filterKeys, searchLoop, Res.ok_bind]
    · intro eff
      simp [delete]

/-- A history that meets the hypothesis: a key for one user, a search and a deletion. -/
example : ∀ c ∈ [Cmd.store b!"u" b!"k" [1, 2] 0 false [], .search ⟨true, 0, b!"u"⟩ .null, .delete ⟨false, 5, []⟩],
    c.owner ≠ some [] := by simp [Cmd.owner]

open Ex Scheme.Toy in
/-- Without assertions a key is stored for the empty user name, in the state of three keys of two users. -/
example : isOk (store (released env) km3 [] b!"k9" (cpKey b!"|a|c") 0 false []).1 (fun r => r) = true ∧
    isOk (getKey (store (released env) km3 [] b!"k9" (cpKey b!"|a|c") 0 false []).2 [] b!"k9") (fun r => r.2 = cpKey b!"|a|c") = true ∧
    isOk (search (released env) (store (released env) km3 [] b!"k9" (cpKey b!"|a|c") 0 false []).2 ⟨false, 0, []⟩ pol)
      (fun r => r.1 = []) = true := by decide +kernel

end Abe.KeyMgr
