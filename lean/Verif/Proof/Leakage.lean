import Verif.Model.Leakage
set_option linter.unusedSimpArgs false
set_option linter.unusedSectionVars false
set_option autoImplicit false
/-! # Traces: rules, the results of the traced functions, and that two runs look the same -/
namespace Abe
namespace Leak

/-- Two outcomes of the same kind, with related values. -/
def ResRel {α β : Type} (R : α → β → Prop) : Res α → Res β → Prop
  | .ok a, .ok b => R a b
  | .throw e, .throw e' => e = e'
  | .ub, .ub => True
  | .abort, .abort => True
  | _, _ => False

/-- Two runs look the same and their values are related. -/
structure Alike {α β : Type} (R : α → β → Prop) (x : Seen α) (y : Seen β) : Prop where
  trace : x.trace = y.trace
  res : ResRel R x.res y.res

theorem alike_bind {α β γ δ : Type} {R : α → β → Prop} {S : γ → δ → Prop} {x : Seen α} {y : Seen β} {f : α → Seen γ} {g : β → Seen δ}
    (h : Alike R x y) (hf : ∀ a b, R a b → Alike S (f a) (g b)) : Alike S (x.bind f) (y.bind g) := by
  obtain ⟨tx, rx⟩ := x
  obtain ⟨ty, ry⟩ := y
  obtain ⟨ht, hr⟩ := h
  simp only at ht
  subst ht
  cases rx <;> cases ry <;> simp only [ResRel] at hr
  · have := hf _ _ hr
    exact ⟨by simp only [Seen.bind, this.trace], by simpa only [Seen.bind] using this.res⟩
  · subst hr
    exact ⟨rfl, rfl⟩
  · exact ⟨rfl, trivial⟩
  · exact ⟨rfl, trivial⟩

theorem alike_pure {α β : Type} {R : α → β → Prop} {a : α} {b : β} (h : R a b) : Alike R (pure a : Seen α) (pure b : Seen β) :=
  ⟨rfl, h⟩

theorem alike_see (e : Ev) : Alike (fun _ _ => True) (see e) (see e) := ⟨rfl, trivial⟩

theorem alike_test {b b' : Bool} (h : b = b') : Alike (fun x y => x = y ∧ x = b) (test b) (test b') := by
  subst h
  exact ⟨rfl, rfl, rfl⟩

theorem alike_lift {α β : Type} {R : α → β → Prop} {x : Res α} {y : Res β} (h : ResRel R x y) : Alike R (lift x) (lift y) := ⟨rfl, h⟩

theorem seen_bind_res {α β : Type} (x : Seen α) (f : α → Seen β) : (x.bind f).res = x.res >>= fun a => (f a).res := by
  obtain ⟨t, r⟩ := x
  cases r <;> rfl

theorem bind_def {α β : Type} (x : Seen α) (f : α → Seen β) : (x >>= f) = x.bind f := rfl

theorem seen_pure_res {α : Type} (a : α) : (pure a : Seen α).res = .ok a := rfl

theorem see_res (e : Ev) : (see e).res = .ok () := rfl

theorem test_res (b : Bool) : (test b).res = .ok b := rfl

theorem lift_res {α : Type} (r : Res α) : (lift r).res = r := rfl

theorem seen_ite_res {α : Type} {c : Prop} [Decidable c] (x y : Seen α) : (if c then x else y).res = if c then x.res else y.res := by
  split <;> rfl

/-! ## Results -/

theorem at'_res (obj : Nat) (b : Bytes) (i : Nat) : (at' obj b i).res = BS.atR b i := by
  unfold at'
  simp only [bind_def, seen_bind_res, test_res, Res.ok_bind, seen_ite_res, see_res, lift_res, decide_eq_true_eq]
  split
  · rfl
  · unfold BS.atR
    rw [List.getElem?_eq_none (by omega)]

theorem eqLoop_res (lhs rhs : Bytes) (hl : lhs.length = rhs.length) : ∀ (n i : Nat) (rc : UInt8), n + i = lhs.length →
    (eqLoop lhs rhs n i rc).res = .ok ((List.zipWith (fun x y => x ^^^ y) (lhs.drop i) (rhs.drop i)).foldl (fun rc d => rc ||| d) rc)
  | 0, i, rc, h => by
    rw [eqLoop, bind_def, seen_bind_res, List.drop_eq_nil_of_le (by omega)]
    rfl
  | n + 1, i, rc, h => by
    have h1 : i < lhs.length := by omega
    have h2 : i < rhs.length := by omega
    rw [eqLoop]
    simp only [bind_def, seen_bind_res, test_res, Res.ok_bind, at'_res, BS.atR, List.getElem?_eq_getElem h1, List.getElem?_eq_getElem h2]
    rw [eqLoop_res lhs rhs hl n (i + 1) _ (by omega), List.drop_eq_getElem_cons h1, List.drop_eq_getElem_cons h2]
    rfl

theorem eq_res (lhs rhs : Bytes) : (eq lhs rhs).res = .ok (BS.eq lhs rhs) := by
  unfold eq BS.eq
  simp only [bind_def, seen_bind_res, test_res, Res.ok_bind, seen_ite_res, seen_pure_res, decide_eq_true_eq]
  split
  · rfl
  · rename_i h
    rw [eqLoop_res lhs rhs (by simpa using h) _ _ _ (by omega), Res.ok_bind]
    rfl

theorem xorLoop_res (rhs : Bytes) (hr : 0 < rhs.length) : ∀ (n i : Nat) (this : Bytes), n + i = this.length →
    (xorLoop rhs n i this).res =
      .ok (this.mapIdx fun j x => if i ≤ j then x ^^^ rhs[j % rhs.length]'(Nat.mod_lt _ hr) else x)
  | 0, i, this, h => by
    rw [xorLoop, bind_def, seen_bind_res]
    simp only [test_res, Res.ok_bind, seen_pure_res]
    congr 1
    apply List.ext_getElem (by simp)
    intro j h1 h2
    rw [List.getElem_mapIdx, if_neg (by omega)]
  | n + 1, i, this, h => by
    have h1 : i < this.length := by omega
    have h2 : i % rhs.length < rhs.length := Nat.mod_lt _ hr
    rw [xorLoop]
    simp only [bind_def, seen_bind_res, test_res, Res.ok_bind, at'_res, BS.atR, List.getElem?_eq_getElem h1,
      List.getElem?_eq_getElem h2, see_res]
    rw [xorLoop_res rhs hr n (i + 1) _ (by simp; omega)]
    congr 1
    apply List.ext_getElem (by simp)
    intro j h3 h4
    simp only [List.getElem_mapIdx, List.getElem_set]
    by_cases hij : i = j
    · subst hij
      rw [if_neg (by omega), if_pos rfl, if_pos (by omega)]
    · by_cases hlt : i + 1 ≤ j
      · rw [if_pos hlt, if_neg hij, if_pos (by omega)]
      · rw [if_neg hlt, if_neg hij, if_neg (by omega)]

theorem xorAssign_res (this rhs : Bytes) : (xorAssign this rhs).res = BS.xorAssign this rhs := by
  unfold xorAssign BS.xorAssign
  by_cases h0 : this.length = 0
  · rw [if_pos h0, h0, xorLoop]
    rfl
  · rw [if_neg h0]
    by_cases hr : 0 < rhs.length
    · rw [dif_pos hr, xorLoop_res rhs hr _ _ _ (by omega)]
      simp only [Nat.zero_le, if_true]
    · rw [dif_neg hr]
      obtain ⟨n, hn⟩ : ∃ n, this.length = n + 1 := ⟨this.length - 1, by omega⟩
      rw [hn, xorLoop]
      have hz : rhs = [] := by
        cases rhs with
        | nil => rfl
        | cons a t => simp at hr
      subst hz
      simp only [bind_def, seen_bind_res, test_res, Res.ok_bind, at'_res, BS.atR,
        List.getElem?_eq_getElem (show 0 < this.length by omega)]
      rfl

theorem fillLoop_res : ∀ (n i : Nat) (b : Bytes), n + i = b.length →
    (fillLoop n i b).res = .ok (b.take i ++ List.replicate n 0)
  | 0, i, b, h => by
    rw [fillLoop, bind_def, seen_bind_res]
    simp only [test_res, Res.ok_bind, seen_pure_res]
    rw [List.take_of_length_le (by omega)]
    simp
  | n + 1, i, b, h => by
    rw [fillLoop]
    simp only [bind_def, seen_bind_res, test_res, Res.ok_bind, see_res]
    rw [fillLoop_res n (i + 1) _ (by simp; omega)]
    congr 1
    have h1 : i < b.length := by omega
    rw [List.take_add_one, List.take_set_of_le (Nat.le_refl _), List.getElem?_set_self h1, List.replicate_succ]
    simp

theorem zeroize_res (b : Bytes) : (zeroize b).res = .ok (List.replicate b.length 0) := by
  unfold zeroize
  simp only [bind_def, seen_bind_res, test_res, Res.ok_bind, seen_ite_res, seen_pure_res, decide_eq_true_eq]
  split
  · rw [fillLoop_res _ _ _ (by omega)]
    simp
  · have h0 : b = [] := List.eq_nil_of_length_eq_zero (by omega)
    subst h0
    rfl

theorem maskLoop_res (md : Bytes → Bytes) (pre : UInt8) (buf : Bytes) : ∀ (n i : Nat),
    (maskLoop md pre buf n i).res = .ok ((List.range' i n).flatMap (Scheme.maskBlock md pre buf))
  | 0, _ => rfl
  | n + 1, i => by
    rw [maskLoop]
    simp only [bind_def, seen_bind_res, test_res, Res.ok_bind, see_res, maskLoop_res md pre buf n (i + 1), seen_pure_res]
    rw [List.range'_succ, List.flatMap_cons]

theorem hashFromBytes_res (md : Bytes → Bytes) (buf : Bytes) (target : Nat) (pre : UInt8) :
    (hashFromBytes md buf target pre).res = .ok (Scheme.hashFromBytes md buf target pre) := by
  unfold hashFromBytes Scheme.hashFromBytes
  simp only [bind_def, seen_bind_res, maskLoop_res, Res.ok_bind, seen_pure_res]
  rw [List.range_eq_range']

theorem mask_res (md : Bytes → Bytes) (key msg : Bytes) :
    (mask md key msg).res = BS.xorAssign msg (Scheme.hashFromBytes md key msg.length Scheme.schemeHashPrefix) := by
  unfold mask
  rw [bind_def, seen_bind_res, hashFromBytes_res, Res.ok_bind, xorAssign_res]

theorem deriveLoop_res (md : Digest) (hashLen : Nat) : ∀ (n : Nat) (count : UInt32) (buffer : Bytes) (ptr : Nat) (arr : Bytes),
    (deriveLoop md hashLen n count buffer ptr arr).res = Kdf.deriveLoop md hashLen n count buffer ptr arr
  | 0, _, _, _, _ => rfl
  | n + 1, count, buffer, ptr, arr => by
    rw [deriveLoop, Kdf.deriveLoop]
    simp only [bind_def, seen_bind_res, test_res, Res.ok_bind, see_res, lift_res, deriveLoop_res md hashLen n]

theorem deriveKey_res (md : Digest) (k : Kdf) (Z : Bytes) (keyBitLen : UInt32) (info : Bytes) :
    (deriveKey md k Z keyBitLen info).res = Kdf.deriveKey md k Z keyBitLen info := by
  unfold deriveKey Kdf.deriveKey
  simp only [bind_def, seen_bind_res, test_res, Res.ok_bind, see_res, lift_res, seen_ite_res, deriveLoop_res, decide_eq_true_eq]

theorem hkdfLoop_res (mac : Hmac) (prk info : Bytes) (keyLen i : Nat) (tmp out : Bytes) :
    (hkdfLoop mac prk info keyLen i tmp out).res = .ok (Kdf.hkdfLoop mac prk info keyLen i tmp out) := by
  rw [hkdfLoop, Kdf.hkdfLoop]
  split
  · simp only [bind_def, seen_bind_res, test_res, Res.ok_bind, see_res]
    exact hkdfLoop_res mac prk info keyLen (i + 1) _ _
  · rfl
termination_by keyLen - out.length
decreasing_by
  simp only [List.length_append, mac.length]
  omega

theorem computeHKDF_res (md : Digest) (mac : Hmac) (key salt info : Bytes) (keyLen : Nat) :
    (computeHKDF md mac key salt info keyLen).res = .ok (Kdf.computeHKDF md mac key salt info keyLen) := by
  unfold computeHKDF Kdf.computeHKDF
  simp only [bind_def, seen_bind_res, test_res, Res.ok_bind, see_res, hkdfLoop_res, seen_pure_res, decide_eq_true_eq]

theorem computeKDF2_res (kdf : Nat → Bytes → Bytes) (key : Bytes) (len : UInt32) :
    (computeKDF2 kdf key len).res = Kdf.computeKDF2 kdf key len := by
  unfold computeKDF2 Kdf.computeKDF2
  simp only [bind_def, seen_bind_res, test_res, Res.ok_bind, see_res, lift_res, seen_ite_res, decide_eq_true_eq]

/-! ## Two runs -/

theorem at'_alike (obj : Nat) {b b' : Bytes} (h : b.length = b'.length) (i : Nat) :
    Alike (fun _ _ => True) (at' obj b i) (at' obj b' i) := by
  unfold at'
  rw [h]
  refine alike_bind (alike_test rfl) ?_
  rintro x _ ⟨rfl, hx⟩
  split
  · rename_i hin
    rw [hin] at hx
    have hi : i < b'.length := by simpa using hx.symm
    refine alike_bind (alike_see _) fun _ _ _ => alike_lift ?_
    simp only [BS.atR, List.getElem?_eq_getElem hi, List.getElem?_eq_getElem (h ▸ hi : i < b.length), ResRel]
  · exact alike_lift rfl

theorem eqLoop_alike {lhs rhs lhs' rhs' : Bytes} (h1 : lhs.length = lhs'.length) (h2 : rhs.length = rhs'.length) :
    ∀ (n i : Nat) (rc rc' : UInt8), Alike (fun _ _ => True) (eqLoop lhs rhs n i rc) (eqLoop lhs' rhs' n i rc')
  | 0, _, _, _ => by
    rw [eqLoop, eqLoop]
    exact alike_bind (alike_test rfl) fun _ _ _ => alike_pure trivial
  | n + 1, i, rc, rc' => by
    rw [eqLoop, eqLoop]
    exact alike_bind (alike_test rfl) fun _ _ _ =>
      alike_bind (at'_alike 0 h1 i) fun _ _ _ => alike_bind (at'_alike 1 h2 i) fun _ _ _ => eqLoop_alike h1 h2 n (i + 1) _ _

theorem eq_trace {lhs rhs lhs' rhs' : Bytes} (h1 : lhs.length = lhs'.length) (h2 : rhs.length = rhs'.length)
    (hans : BS.eq lhs rhs = BS.eq lhs' rhs') : (eq lhs rhs).trace = (eq lhs' rhs').trace := by
  by_cases hl : lhs.length = rhs.length
  · have hl' : lhs'.length = rhs'.length := by omega
    have key : ∀ (x y : Bytes), x.length = y.length →
        (eq x y).trace = (.jump false :: ((eqLoop x y x.length 0 0).trace ++ [.jump (BS.eq x y)])) := by
      intro x y hxy
      have e := eqLoop_res x y hxy x.length 0 0 (by omega)
      unfold eq
      simp only [bind_def, Seen.bind, test, hxy, ne_eq, not_true_eq_false, decide_false, Bool.false_eq_true, if_false]
      rw [← hxy, e]
      simp only [List.cons_append, List.nil_append, BS.eq, hxy, ne_eq, not_true_eq_false, if_false, List.drop_zero]
    rw [key _ _ hl, key _ _ hl', hans, h1, (eqLoop_alike h1 h2 lhs'.length 0 0 0).trace]
  · have hl' : ¬ lhs'.length = rhs'.length := by omega
    have key : ∀ (x y : Bytes), ¬ x.length = y.length → (eq x y).trace = [.jump true] := by
      intro x y hxy
      unfold eq
      simp only [bind_def, Seen.bind, test, hxy, ne_eq, not_false_eq_true, decide_true, if_true]
      rfl
    rw [key _ _ hl, key _ _ hl']

/-- The relation of equal lengths. -/
def SameLen (x y : Bytes) : Prop := x.length = y.length

theorem xorLoop_alike {rhs rhs' : Bytes} (hr : rhs.length = rhs'.length) : ∀ (n i : Nat) (this this' : Bytes),
    this.length = this'.length → Alike SameLen (xorLoop rhs n i this) (xorLoop rhs' n i this')
  | 0, _, _, _, h => alike_bind (alike_test rfl) fun _ _ _ => alike_pure (R := SameLen) h
  | n + 1, i, this, this', h => by
    rw [xorLoop, xorLoop]
    refine alike_bind (alike_test rfl) fun _ _ _ => alike_bind (at'_alike 0 h i) fun x x' _ => ?_
    rw [← hr]
    by_cases hi : i % rhs.length < rhs.length
    · rw [List.getElem?_eq_getElem hi, List.getElem?_eq_getElem (hr ▸ hi : i % rhs.length < rhs'.length)]
      exact alike_bind (alike_see _) fun _ _ _ => alike_bind (alike_see _) fun _ _ _ =>
        xorLoop_alike hr n (i + 1) _ _ (by simp [h])
    · rw [List.getElem?_eq_none (by omega), List.getElem?_eq_none (by omega)]
      exact alike_lift trivial

theorem xorAssign_alike {this this' rhs rhs' : Bytes} (h : this.length = this'.length) (hr : rhs.length = rhs'.length) :
    Alike SameLen (xorAssign this rhs) (xorAssign this' rhs') := by
  unfold xorAssign
  rw [← h]
  exact xorLoop_alike hr _ _ _ _ h

theorem fillLoop_alike : ∀ (n i : Nat) (b b' : Bytes), b.length = b'.length → Alike SameLen (fillLoop n i b) (fillLoop n i b')
  | 0, _, _, _, h => alike_bind (alike_test rfl) fun _ _ _ => alike_pure (R := SameLen) h
  | n + 1, i, b, b', h =>
    alike_bind (alike_test rfl) fun _ _ _ => alike_bind (alike_see _) fun _ _ _ => fillLoop_alike n (i + 1) _ _ (by simp [h])

theorem zeroize_alike {b b' : Bytes} (h : b.length = b'.length) : Alike SameLen (zeroize b) (zeroize b') := by
  unfold zeroize
  rw [← h]
  refine alike_bind (alike_test rfl) ?_
  rintro x _ ⟨rfl, _⟩
  split
  · exact fillLoop_alike _ _ _ _ h
  · exact alike_pure h

theorem maskLoop_alike (md : Digest) (pre : UInt8) {buf buf' : Bytes} (h : buf.length = buf'.length) : ∀ (n i : Nat),
    Alike SameLen (maskLoop md.fn pre buf n i) (maskLoop md.fn pre buf' n i)
  | 0, _ => alike_bind (alike_test rfl) fun _ _ _ => alike_pure (R := SameLen) rfl
  | n + 1, i => by
    rw [maskLoop, maskLoop, h]
    refine alike_bind (alike_test rfl) fun _ _ _ => alike_bind (alike_see _) fun _ _ _ => alike_bind (alike_see _) fun _ _ _ =>
      alike_bind (alike_see _) fun _ _ _ => alike_bind (maskLoop_alike md pre h n (i + 1)) fun a b hab => alike_pure ?_
    unfold SameLen Scheme.maskBlock at *
    rw [List.length_append, List.length_append, md.length, md.length, hab]

theorem hashFromBytes_alike (md : Digest) (pre : UInt8) {buf buf' : Bytes} (h : buf.length = buf'.length) (target : Nat) :
    Alike SameLen (hashFromBytes md.fn buf target pre) (hashFromBytes md.fn buf' target pre) := by
  refine alike_bind (maskLoop_alike md pre h _ _) fun a b hab => alike_pure ?_
  unfold SameLen at *
  rw [List.length_take, List.length_take, hab]

theorem mask_alike (md : Digest) {key key' msg msg' : Bytes} (hk : key.length = key'.length) (hm : msg.length = msg'.length) :
    Alike SameLen (mask md.fn key msg) (mask md.fn key' msg') := by
  unfold mask
  rw [← hm]
  exact alike_bind (hashFromBytes_alike md _ hk _) fun a b hab => xorAssign_alike hm hab

theorem setFirstBytes_sameLen {b b' : Bytes} (h : b.length = b'.length) (n : Nat) :
    (BS.setFirstBytes b n).length = (BS.setFirstBytes b' n).length := by
  unfold BS.setFirstBytes
  rw [h]
  split <;> simp [h]

theorem poke_rel {a a' s s' : Bytes} (h : a.length = a'.length) (hs : s.length = s'.length) (i : Nat) :
    ResRel SameLen (Kdf.poke a i s) (Kdf.poke a' i s') := by
  unfold Kdf.poke
  rw [h, hs]
  split
  · simp only [ResRel, SameLen, List.length_append, List.length_take, List.length_drop, h, hs]
  · trivial

theorem deriveLoop_alike (md : Digest) (hashLen : Nat) : ∀ (n : Nat) (count : UInt32) (b b' : Bytes) (ptr : Nat) (arr arr' : Bytes),
    b.length = b'.length → arr.length = arr'.length →
    Alike SameLen (deriveLoop md hashLen n count b ptr arr) (deriveLoop md hashLen n count b' ptr arr')
  | 0, _, _, _, _, _, _, _, h => alike_bind (alike_test rfl) fun _ _ _ => alike_pure (R := SameLen) h
  | n + 1, count, b, b', ptr, arr, arr', hb, ha => by
    rw [deriveLoop, deriveLoop, hb]
    refine alike_bind (alike_test rfl) fun _ _ _ => alike_bind (alike_see _) fun _ _ _ => alike_bind (alike_see _) fun _ _ _ =>
      alike_bind (alike_lift (poke_rel ha (by rw [md.length, md.length]) ptr)) fun x y hxy => alike_bind (alike_test rfl) fun _ _ _ => ?_
    exact deriveLoop_alike md hashLen n _ _ _ _ _ _ (setFirstBytes_sameLen hb _) hxy

theorem deriveKey_alike (md : Digest) (k : Kdf) {Z Z' info info' : Bytes} (hZ : Z.length = Z'.length)
    (hi : info.length = info'.length) (bits : UInt32) :
    Alike SameLen (deriveKey md k Z bits info) (deriveKey md k Z' bits info') := by
  have hl : (BS.setFirstBytes [] 1 ++ [k.hashPrefix] ++ Z ++ info).length = (BS.setFirstBytes [] 1 ++ [k.hashPrefix] ++ Z' ++ info').length := by
    simp only [List.length_append, hZ, hi]
  unfold deriveKey
  split
  · exact alike_lift trivial
  · simp only
    refine alike_bind (alike_test rfl) ?_
    rintro x _ ⟨rfl, _⟩
    split
    · exact alike_lift rfl
    · rw [hl]
      refine alike_bind (alike_test rfl) ?_
      rintro x _ ⟨rfl, _⟩
      split
      · exact alike_lift rfl
      · split
        · exact alike_lift trivial
        · refine alike_bind (deriveLoop_alike md _ _ _ _ _ _ _ _ hl rfl) fun a b hab => ?_
          unfold SameLen at hab
          rw [hab]
          split
          · exact alike_lift trivial
          · refine alike_lift ?_
            simp only [ResRel, SameLen, List.length_take, hab]

theorem hkdfLoop_alike (mac : Hmac) {prk prk' info info' : Bytes} (hp : prk.length = prk'.length) (hi : info.length = info'.length)
    (keyLen i : Nat) (tmp tmp' out out' : Bytes) (ht : tmp.length = tmp'.length) (ho : out.length = out'.length) :
    Alike SameLen (hkdfLoop mac prk info keyLen i tmp out) (hkdfLoop mac prk' info' keyLen i tmp' out') := by
  rw [hkdfLoop, hkdfLoop, ho]
  have hl : (tmp ++ info ++ [UInt8.ofNat (i + 1)]).length = (tmp' ++ info' ++ [UInt8.ofNat (i + 1)]).length := by
    simp only [List.length_append, ht, hi]
  split
  · simp only [hl, hp]
    refine alike_bind (alike_test rfl) fun _ _ _ => alike_bind (alike_see _) fun _ _ _ => ?_
    exact hkdfLoop_alike mac hp hi keyLen (i + 1) _ _ _ _ (by rw [mac.length, mac.length])
      (by rw [List.length_append, List.length_append, mac.length, mac.length, ho])
  · exact alike_bind (alike_test rfl) fun _ _ _ => alike_pure ho
termination_by keyLen - out.length
decreasing_by
  simp only [List.length_append, mac.length]
  omega

theorem computeHKDF_alike (md : Digest) (mac : Hmac) {key key' salt salt' info info' : Bytes} (hk : key.length = key'.length)
    (hs : salt.length = salt'.length) (hi : info.length = info'.length) (keyLen : Nat) :
    Alike (fun x y => SameLen x.1 y.1 ∧ SameLen x.2 y.2) (computeHKDF md mac key salt info keyLen)
      (computeHKDF md mac key' salt' info' keyLen) := by
  unfold computeHKDF
  rw [hs]
  refine alike_bind (alike_test rfl) ?_
  rintro x _ ⟨rfl, _⟩
  have hs2 : (if x = true then BS.fillBuffer 0 32 else salt).length = (if x = true then BS.fillBuffer 0 32 else salt').length := by
    split <;> first | rfl | exact hs
  simp only
  rw [hs2, hk, md.length, md.length]
  refine alike_bind (alike_see _) fun _ _ _ => alike_bind (alike_see _) fun _ _ _ =>
    alike_bind (hkdfLoop_alike mac (by rw [mac.length, mac.length]) hi keyLen 0 [] [] [] [] rfl rfl) fun a b hab => alike_pure ?_
  refine ⟨?_, hs2⟩
  unfold SameLen at *
  rw [List.length_take, List.length_take, hab]

theorem computeKDF2_alike (kdf : Nat → Bytes → Bytes) {key key' : Bytes} (hk : key.length = key'.length) (len : UInt32) :
    Alike (fun _ _ => True) (computeKDF2 kdf key len) (computeKDF2 kdf key' len) := by
  unfold computeKDF2
  rw [hk]
  refine alike_bind (alike_test rfl) ?_
  rintro x _ ⟨rfl, _⟩
  split
  · exact alike_lift rfl
  · refine alike_bind (alike_test rfl) ?_
    rintro x _ ⟨rfl, _⟩
    split
    · exact alike_lift rfl
    · exact alike_bind (alike_see _) fun _ _ _ => alike_lift trivial

theorem setSymmetricKey_alike {key key' : Bytes} (hk : key.length = key'.length) :
    Alike SameLen (setSymmetricKey key) (setSymmetricKey key') := by
  unfold setSymmetricKey
  rw [hk]
  refine alike_bind (alike_test rfl) ?_
  rintro x _ ⟨rfl, _⟩
  split
  · refine alike_bind (alike_test rfl) ?_
    rintro y _ ⟨rfl, _⟩
    split
    · exact alike_lift rfl
    · exact alike_pure hk
  · exact alike_pure hk

end Leak
end Abe
