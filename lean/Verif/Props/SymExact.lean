import Verif.Proof.Fields
import Verif.Props.Sym

set_option linter.unusedSimpArgs false
set_option linter.unusedSectionVars false
set_option autoImplicit false

/-! C147: the outcome of decrypting any byte string with a symmetric key. -/

namespace Abe
namespace SymExact

/-- The bytes of a ciphertext. -/
def raw (b64 : Bool) (c : Bytes) : Bytes := if b64 then B64.decode c else c

/-- The authentication data that counts: 16 zero bytes if there is none. -/
def authData (a : Bytes) : Bytes := if a = [] then List.replicate 16 0 else a

/-- A result, or `std::out_of_range`. -/
def Ranged {α : Type} (x : Res α) : Prop := (∃ q, x = .ok q) ∨ x = .throw .outOfRange

theorem Ranged.bind {α β : Type} {x : Res α} {f : α → Res β} (hx : Ranged x) (hf : ∀ a, Ranged (f a)) : Ranged (x >>= f) := by
  rcases hx with ⟨q, rfl⟩ | rfl
  · exact hf q
  · exact Or.inr rfl

theorem Ranged.ok {α : Type} (a : α) : Ranged (.ok a) := Or.inl ⟨a, rfl⟩

theorem at_or (b : Bytes) (i : Nat) : Ranged (BS.atR b i) := by
  unfold BS.atR
  cases b[i]? with
  | none => exact Or.inr rfl
  | some x => exact .ok x

theorem copy_or (b : Bytes) (n : Nat) : ∀ i, Ranged (BS.copyAt b i n) := by
  induction n with
  | zero => intro i; exact .ok _
  | succ n ih =>
    intro i
    exact (at_or b i).bind fun x => (ih (i + 1)).bind fun r => .ok _

theorem unpackLong_or (z : Bytes) (i : Nat) : Ranged (BS.unpack z i) :=
  Ranged.bind ((at_or _ _).bind fun _ => (at_or _ _).bind fun _ => (at_or _ _).bind fun _ =>
    (at_or _ _).bind fun _ => .ok _) fun _ => (copy_or _ _ _).bind fun _ => .ok _

theorem unpack_or (z : Bytes) (i : Nat) : (∃ q, BS.smartUnpack z i = .ok q) ∨ BS.smartUnpack z i = .throw .outOfRange := by
  unfold BS.smartUnpack
  refine (at_or z i).bind fun ty => ?_
  split
  · exact unpackLong_or z _
  · split
    · exact Ranged.bind ((at_or _ _).bind fun _ => (at_or _ _).bind fun _ => .ok _) fun _ =>
        (copy_or _ _ _).bind fun _ => .ok _
    · split
      · exact (at_or _ _).bind fun _ => (copy_or _ _ _).bind fun _ => .ok _
      · exact .ok _

theorem dec_cases (g : Gcm) (key aad iv ct tag : Bytes) (hk : 32 ≤ key.length) :
    AuthEnc.decrypt g { key := key, aad := aad, aadSet := true } iv ct tag =
      if tag.length ≠ 16 then .throw .invalidTagLength
      else if iv = [] then .ub
      else .ok (if tag = g.mac (key.take 32) iv aad ct then some (g.crypt (key.take 32) iv 0 ct) else none) := by
  by_cases ht : tag.length = 16
  · rw [if_neg (by simp [ht])]
    by_cases hiv : iv = []
    · rw [if_pos hiv]
      subst hiv
      rw [AuthEnc.decrypt, if_neg (by simp [aesBlock, ht]), GcmCtx.init, if_pos (Or.inr rfl)]
      rfl
    · rw [if_neg hiv, AuthEnc.decrypt_eq g key aad iv ct tag hk hiv ht]
      simp only [eq_comm]
  · rw [if_pos ht, AuthEnc.decrypt, if_pos (show tag.length ≠ aesBlock from ht)]

/-- The result of a key handle, from the fields. -/
theorem handle_fields (g : Gcm) {key auth : Bytes} {b64 : Bool} {h : SymHandle} (hn : SymHandle.new key auth b64 = .ok h)
    {c iv ct tag r : Bytes} (hf : Fields (raw b64 c) [iv, ct, tag] r) :
    h.decrypt g c =
      if tag.length ≠ 16 then .throw .runtimeError
      else if iv = [] then .ub
      else if tag = g.mac key iv (authData auth) ct then .ok (g.crypt key iv 0 ct) else .throw .runtimeError := by
  obtain ⟨hk, rfl⟩ := Sym.new_handle hn
  have ht : key.take 32 = key := List.take_of_length_le (by omega)
  obtain ⟨f1, s1, e1, hf1, hs1⟩ := fields_cons_inv hf
  obtain ⟨f2, s2, rfl, hf2, hs2⟩ := fields_cons_inv hs1
  obtain ⟨f3, s3, rfl, hf3, hs3⟩ := fields_cons_inv hs2
  have hz : (if b64 then B64.decode c else c) = f1 ++ (f2 ++ (f3 ++ s3)) := e1
  have h3 := (smartUnpack_at_iff (p := f1 ++ f2) (s := f3 ++ s3) (x := tag)).mpr ⟨f3, _, rfl, hf3, rfl⟩
  rw [List.append_assoc] at h3
  rw [SymHandle.decrypt]
  simp only [hz]
  rw [smartUnpack_iff.mpr ⟨f1, _, rfl, hf1, rfl⟩, Res.ok_bind]
  dsimp only
  rw [smartUnpack_at_iff.mpr ⟨f2, _, rfl, hf2, rfl⟩, Res.ok_bind]
  dsimp only
  rw [h3, Res.ok_bind]
  dsimp only
  rw [SymHandle.cipher_eq, dec_cases g key _ iv ct tag (Nat.le_of_eq hk.symm), ht]
  have ha : aadOf auth = authData auth := rfl
  rw [ha]
  by_cases h16 : tag.length = 16
  · simp only [h16, ne_eq, not_true_eq_false, if_false]
    by_cases hiv : iv = []
    · simp only [hiv, if_true]; rfl
    · simp only [hiv, if_false]
      by_cases hm : tag = g.mac key iv (authData auth) ct
      · simp only [if_pos hm]; rfl
      · simp only [if_neg hm]; rfl
  · simp only [h16, ne_eq, not_false_eq_true, if_true]; rfl

/-- Without three fields. -/
theorem handle_no_fields (g : Gcm) {key auth : Bytes} {b64 : Bool} {h : SymHandle} (hn : SymHandle.new key auth b64 = .ok h)
    {c : Bytes} (hf : ¬ ∃ iv ct tag r, Fields (raw b64 c) [iv, ct, tag] r) : h.decrypt g c = .throw .outOfRange := by
  obtain ⟨hk, rfl⟩ := Sym.new_handle hn
  rw [SymHandle.decrypt]
  have hz : (if b64 then B64.decode c else c) = raw b64 c := rfl
  simp only [hz]
  rcases unpack_or (raw b64 c) 0 with ⟨⟨iv, i⟩, h1⟩ | h1
  rotate_left
  · rw [h1]; rfl
  rw [h1, Res.ok_bind]
  dsimp only
  rcases unpack_or (raw b64 c) i with ⟨⟨ct, j⟩, h2⟩ | h2
  rotate_left
  · rw [h2]; rfl
  rw [h2, Res.ok_bind]
  dsimp only
  rcases unpack_or (raw b64 c) j with ⟨⟨tag, k⟩, h3⟩ | h3
  rotate_left
  · rw [h3]; rfl
  exfalso
  have := (read3_iff (z := raw b64 c) (k := fun x y w => Res.ok (x, y, w)) (a := (iv, ct, tag))).mp (by
    rw [h1, Res.ok_bind]; dsimp only; rw [h2, Res.ok_bind]; dsimp only; rw [h3, Res.ok_bind])
  obtain ⟨x, y, w, r, hf', _⟩ := this
  exact hf ⟨x, y, w, r, hf'⟩

/-- What a key handle does with any byte string: it decrypts exactly the strings that begin with three fields of
which the first is not empty and the third is the tag of the others; the behaviour is undefined exactly for an
empty first field with a tag of the right length; without three fields the library raises `std::out_of_range`,
and otherwise a runtime error. -/
theorem C147_handle (g : Gcm) (key auth : Bytes) (b64 : Bool) (h : SymHandle) (hn : SymHandle.new key auth b64 = .ok h) (c : Bytes) :
    (∀ m, h.decrypt g c = .ok m ↔ ∃ iv ct tag r, Fields (raw b64 c) [iv, ct, tag] r ∧ iv ≠ [] ∧
      tag = g.mac key iv (authData auth) ct ∧ m = g.crypt key iv 0 ct) ∧
    (h.decrypt g c = .ub ↔ ∃ ct tag r, Fields (raw b64 c) [[], ct, tag] r ∧ tag.length = 16) ∧
    (h.decrypt g c = .throw .outOfRange ↔ ¬ ∃ iv ct tag r, Fields (raw b64 c) [iv, ct, tag] r) ∧
    (h.decrypt g c = .throw .runtimeError ↔ ∃ iv ct tag r, Fields (raw b64 c) [iv, ct, tag] r ∧
      (tag.length ≠ 16 ∨ iv ≠ [] ∧ tag ≠ g.mac key iv (authData auth) ct)) := by
  by_cases hf : ∃ iv ct tag r, Fields (raw b64 c) [iv, ct, tag] r
  rotate_left
  · rw [handle_no_fields g hn hf]
    refine ⟨fun m => ⟨fun h => (by cases h), ?_⟩, ⟨fun h => (by cases h), ?_⟩, ⟨fun _ => hf, fun _ => rfl⟩, ⟨fun h => (by cases h), ?_⟩⟩
    · rintro ⟨iv, ct, tag, r, hz, _⟩; exact absurd ⟨iv, ct, tag, r, hz⟩ hf
    · rintro ⟨ct, tag, r, hz, _⟩; exact absurd ⟨[], ct, tag, r, hz⟩ hf
    · rintro ⟨iv, ct, tag, r, hz, _⟩; exact absurd ⟨iv, ct, tag, r, hz⟩ hf
  obtain ⟨iv, ct, tag, r, hz⟩ := hf
  have huniq : ∀ {iv' ct' tag' r' : Bytes}, Fields (raw b64 c) [iv', ct', tag'] r' → iv' = iv ∧ ct' = ct ∧ tag' = tag := by
    intro iv' ct' tag' r' h'
    have := (h'.unique hz rfl).1
    simpa using this
  have hml := g.mac_length key iv (authData auth) ct
  rw [handle_fields g hn hz]
  by_cases h16 : tag.length = 16
  · simp only [h16, ne_eq, not_true_eq_false, if_false, false_or]
    by_cases hiv : iv = []
    · subst hiv
      simp only [if_true]
      refine ⟨fun m => ⟨fun h => (by cases h), ?_⟩, ⟨fun _ => ⟨ct, tag, r, hz, h16⟩, fun _ => trivial⟩,
        ⟨fun h => (by cases h), fun h => absurd ⟨[], ct, tag, r, hz⟩ h⟩, ⟨fun h => (by cases h), ?_⟩⟩
      · rintro ⟨iv', ct', tag', r', h', hne, _⟩; exact absurd (huniq h').1 hne
      · rintro ⟨iv', ct', tag', r', h', h2⟩
        obtain ⟨rfl, rfl, rfl⟩ := huniq h'
        rcases h2 with h2 | h2
        · exact absurd h16 h2
        · exact absurd rfl h2.1
    · simp only [hiv, if_false]
      by_cases hm : tag = g.mac key iv (authData auth) ct
      · simp only [if_pos hm]
        refine ⟨fun m => ⟨fun h => ?_, ?_⟩, ⟨fun h => (by cases h), ?_⟩,
          ⟨fun h => (by cases h), fun h => absurd ⟨iv, ct, tag, r, hz⟩ h⟩, ⟨fun h => (by cases h), ?_⟩⟩
        · cases h; exact ⟨iv, ct, tag, r, hz, hiv, hm, rfl⟩
        · rintro ⟨iv', ct', tag', r', h', _, _, h4⟩
          obtain ⟨rfl, rfl, rfl⟩ := huniq h'
          rw [h4]
        · rintro ⟨ct', tag', r', h', _⟩; exact absurd (huniq h').1.symm hiv
        · rintro ⟨iv', ct', tag', r', h', h2⟩
          obtain ⟨rfl, rfl, rfl⟩ := huniq h'
          rcases h2 with h2 | h2
          · exact absurd h16 h2
          · exact absurd hm h2.2
      · simp only [if_neg hm]
        refine ⟨fun m => ⟨fun h => (by cases h), ?_⟩, ⟨fun h => (by cases h), ?_⟩,
          ⟨fun h => (by cases h), fun h => absurd ⟨iv, ct, tag, r, hz⟩ h⟩,
          ⟨fun _ => ⟨iv, ct, tag, r, hz, Or.inr ⟨hiv, hm⟩⟩, fun _ => trivial⟩⟩
        · rintro ⟨iv', ct', tag', r', h', _, h3, _⟩
          obtain ⟨rfl, rfl, rfl⟩ := huniq h'
          exact absurd h3 hm
        · rintro ⟨ct', tag', r', h', _⟩; exact absurd (huniq h').1.symm hiv
  · simp only [h16, ne_eq, not_false_eq_true, if_true]
    refine ⟨fun m => ⟨fun h => (by cases h), ?_⟩, ⟨fun h => (by cases h), ?_⟩,
      ⟨fun h => (by cases h), fun h => absurd ⟨iv, ct, tag, r, hz⟩ h⟩,
      ⟨fun _ => ⟨iv, ct, tag, r, hz, Or.inl h16⟩, fun _ => trivial⟩⟩
    · rintro ⟨iv', ct', tag', r', h', _, h3, _⟩
      obtain ⟨rfl, rfl, rfl⟩ := huniq h'
      exact absurd (by rw [h3]; exact hml) h16
    · rintro ⟨ct', tag', r', h', h2⟩
      obtain ⟨rfl, rfl, rfl⟩ := huniq h'
      exact absurd h2 h16

/-- Three ways to write the same ciphertext of three bytes, with other lengths of the length and with bytes behind. -/
example : let iv := Sym.Ex.iv16
    let ct : Bytes := [1, 2, 3]
    let tag := Sym.Ex.toy.mac Sym.Ex.key32 iv (List.replicate 16 0) ct
    ∃ h, SymHandle.new Sym.Ex.key32 [] false = .ok h ∧
      h.decrypt Sym.Ex.toy (0xA1 :: 16 :: (iv ++ (0xA1 :: 3 :: (ct ++ (0xA1 :: 16 :: tag))))) =
        .ok (Sym.Ex.toy.crypt Sym.Ex.key32 iv 0 ct) ∧
      h.decrypt Sym.Ex.toy (0xB2 :: 0 :: 16 :: (iv ++ (0xC3 :: 0 :: 0 :: 0 :: 3 :: (ct ++ (0xA1 :: 16 :: (tag ++ [7, 7])))))) =
        .ok (Sym.Ex.toy.crypt Sym.Ex.key32 iv 0 ct) := by
  intro iv ct tag
  have ht : tag.length = 16 := Sym.Ex.toy.mac_length _ _ _ _
  refine ⟨⟨Sym.Ex.key32, [], false⟩, rfl, ?_, ?_⟩
  · refine ((C147_handle Sym.Ex.toy Sym.Ex.key32 [] false _ rfl _).1 _).mpr ⟨iv, ct, tag, [], ?_, by decide, rfl, rfl⟩
    have h3 : Field (0xA1 :: 16 :: tag) tag := .short 16 tag (by rw [ht]; rfl)
    have := Fields.cons (Field.short 16 iv rfl) (.cons (.short 3 ct rfl) (.cons h3 (.nil [])))
    simpa [raw] using this
  · refine ((C147_handle Sym.Ex.toy Sym.Ex.key32 [] false _ rfl _).1 _).mpr ⟨iv, ct, tag, [7, 7], ?_, by decide, rfl, rfl⟩
    have h3 : Field (0xA1 :: 16 :: tag) tag := .short 16 tag (by rw [ht]; rfl)
    have := Fields.cons (Field.mid 0 16 iv rfl) (.cons (.long 0 0 0 3 ct rfl) (.cons h3 (.nil [7, 7])))
    simpa [raw] using this

/-- Bytes behind a ciphertext change nothing, if it is not written in letters. -/
theorem C147_handle_tail (g : Gcm) (key auth : Bytes) (h : SymHandle) (hn : SymHandle.new key auth false = .ok h) (c t m : Bytes)
    (hd : h.decrypt g c = .ok m) : h.decrypt g (c ++ t) = .ok m := by
  obtain ⟨iv, ct, tag, r, hz, h1⟩ := ((C147_handle g key auth false h hn c).1 m).mp hd
  refine ((C147_handle g key auth false h hn (c ++ t)).1 m).mpr ⟨iv, ct, tag, r ++ t, ?_, h1⟩
  obtain ⟨f1, s1, e1, hf1, hs1⟩ := fields_cons_inv hz
  obtain ⟨f2, s2, rfl, hf2, hs2⟩ := fields_cons_inv hs1
  obtain ⟨f3, s3, rfl, hf3, hs3⟩ := fields_cons_inv hs2
  cases fields_nil_inv hs3
  have e1 : c = f1 ++ (f2 ++ (f3 ++ r)) := e1
  have := Fields.cons hf1 (.cons hf2 (.cons hf3 (.nil (r ++ t))))
  simpa [raw, e1] using this

/-! ### Encryption objects -/

theorem fields_peel {f x s y r : Bytes} {ys : List Bytes} (hf : Field f x) (h : Fields (f ++ s) (y :: ys) r) : y = x ∧ Fields s ys r := by
  obtain ⟨f', s', e, hf', hs'⟩ := fields_cons_inv h
  obtain ⟨rfl, rfl, rfl⟩ := hf.unique hf' e
  exact ⟨rfl, hs'⟩

theorem no_field {p s y r : Bytes} {ys : List Bytes} (h : BS.smartUnpack (p ++ s) p.length = .throw .outOfRange) :
    ¬ Fields s (y :: ys) r := by
  intro hf
  obtain ⟨f, s', e, hf', _⟩ := fields_cons_inv hf
  have := (smartUnpack_at_iff (p := p)).mpr ⟨f, s', e, hf', rfl⟩
  rw [h] at this
  cases this

theorem fields_end {y r : Bytes} {ys : List Bytes} : ¬ Fields [] (y :: ys) r := by
  intro h
  obtain ⟨f, s, e, hf, _⟩ := fields_cons_inv h
  exact hf.ne_nil (List.append_eq_nil_iff.mp e.symm).1

/-- What the object reads, and what it raises otherwise. -/
def readParts (z : Bytes) : Res (Bytes × Bytes × Bytes × Bytes) := do
  let (iv, i) ← BS.smartUnpack z 0
  let (zct, i) ← BS.smartUnpack z i
  let (ct, tag, aad) ← EncHandler.fields z zct i
  .ok (iv, ct, tag, aad)

theorem readParts_cases (z : Bytes) :
    (∃ iv ct tag aad, readParts z = .ok (iv, ct, tag, aad) ∧ Parts z iv ct tag aad ∧
      ∀ iv' ct' tag' aad', Parts z iv' ct' tag' aad' → iv' = iv ∧ ct' = ct ∧ tag' = tag ∧ aad' = aad) ∨
    (readParts z = .throw .outOfRange ∧ ¬ ∃ iv ct tag aad, Parts z iv ct tag aad) := by
  unfold readParts
  rcases unpack_or z 0 with ⟨⟨iv, i⟩, h1⟩ | h1
  rotate_left
  · refine Or.inr ⟨by rw [h1]; rfl, ?_⟩
    rintro ⟨iv, ct, tag, aad, h | h | h⟩ <;> exact no_field (p := []) h1 ‹_›
  obtain ⟨f1, s1, rfl, hf1, rfl⟩ := smartUnpack_iff.mp h1
  rw [h1, Res.ok_bind]
  dsimp only
  rcases unpack_or (f1 ++ s1) f1.length with ⟨⟨zct, i⟩, h2⟩ | h2
  rotate_left
  · refine Or.inr ⟨by rw [h2]; rfl, ?_⟩
    rintro ⟨iv, ct, tag, aad, h | h | h⟩ <;> exact no_field h2 (fields_peel hf1 ‹_›).2
  obtain ⟨f2, s2, rfl, hf2, rfl⟩ := smartUnpack_at_iff.mp h2
  rw [h2, Res.ok_bind]
  dsimp only
  rw [EncHandler.fields]
  by_cases hs2 : s2 = []
  · subst hs2
    rw [if_neg (by simp)]
    refine Or.inl ⟨iv, [], zct, [], rfl, ?_, ?_⟩
    · exact .two _ _ (.cons hf1 (.cons hf2 (.nil [])))
    · intro iv' ct' tag' aad' h
      rcases h with h | h | h
      · rename_i h
        obtain ⟨e1, h⟩ := fields_peel hf1 h
        obtain ⟨e2, h⟩ := fields_peel hf2 h
        exact ⟨e1, rfl, e2, rfl⟩
      · rename_i h
        exact absurd (fields_peel hf2 (fields_peel hf1 h).2).2 fields_end
      · rename_i h
        exact absurd (fields_peel hf2 (fields_peel hf1 h).2).2 fields_end
  rw [if_pos (by have := List.length_pos_iff.mpr hs2; simp only [List.length_append]; omega)]
  rw [← List.append_assoc]
  rcases unpack_or ((f1 ++ f2) ++ s2) (f1 ++ f2).length with ⟨⟨tag, i⟩, h3⟩ | h3
  rotate_left
  · refine Or.inr ⟨by rw [h3]; rfl, ?_⟩
    rw [List.append_assoc]
    rintro ⟨iv, ct, tag, aad, h | h | h⟩
    · rename_i h
      exact hs2 (fields_nil_inv (fields_peel hf2 (fields_peel hf1 h).2).2)
    · rename_i h
      exact no_field h3 (fields_peel hf2 (fields_peel hf1 h).2).2
    · rename_i h
      exact no_field h3 (fields_peel hf2 (fields_peel hf1 h).2).2
  obtain ⟨f3, s3, rfl, hf3, rfl⟩ := smartUnpack_at_iff.mp h3
  rw [h3, Res.ok_bind]
  dsimp only
  by_cases hs3 : s3 = []
  · subst hs3
    rw [if_neg (by simp)]
    refine Or.inl ⟨iv, zct, tag, [], rfl, ?_, ?_⟩
    · rw [List.append_assoc]
      exact .three _ _ _ (.cons hf1 (.cons hf2 (.cons hf3 (.nil []))))
    · rw [List.append_assoc]
      intro iv' ct' tag' aad' h
      rcases h with h | h | h
      · rename_i h
        exact absurd (fields_nil_inv (fields_peel hf2 (fields_peel hf1 h).2).2) hs2
      · rename_i h
        obtain ⟨e1, h⟩ := fields_peel hf1 h
        obtain ⟨e2, h⟩ := fields_peel hf2 h
        obtain ⟨e3, h⟩ := fields_peel hf3 h
        exact ⟨e1, e2, e3, rfl⟩
      · rename_i h
        exact absurd (fields_peel hf3 (fields_peel hf2 (fields_peel hf1 h).2).2).2 fields_end
  rw [if_pos (by have := List.length_pos_iff.mpr hs3; simp only [List.length_append]; omega)]
  rw [← List.append_assoc]
  rcases unpack_or (((f1 ++ f2) ++ f3) ++ s3) ((f1 ++ f2) ++ f3).length with ⟨⟨aad, i⟩, h4⟩ | h4
  rotate_left
  · refine Or.inr ⟨by rw [h4]; rfl, ?_⟩
    rw [List.append_assoc, List.append_assoc]
    rintro ⟨iv, ct, tag, aad, h | h | h⟩
    · rename_i h
      exact hs2 (fields_nil_inv (fields_peel hf2 (fields_peel hf1 h).2).2)
    · rename_i h
      exact hs3 (fields_nil_inv (fields_peel hf3 (fields_peel hf2 (fields_peel hf1 h).2).2).2)
    · rename_i h
      exact no_field h4 (fields_peel hf3 (fields_peel hf2 (fields_peel hf1 h).2).2).2
  obtain ⟨f4, s4, rfl, hf4, rfl⟩ := smartUnpack_at_iff.mp h4
  rw [h4, Res.ok_bind]
  dsimp only
  refine Or.inl ⟨iv, zct, tag, aad, rfl, ?_, ?_⟩
  · rw [List.append_assoc, List.append_assoc]
    exact .four _ _ _ _ s4 (.cons hf1 (.cons hf2 (.cons hf3 (.cons hf4 (.nil s4)))))
  · rw [List.append_assoc, List.append_assoc]
    intro iv' ct' tag' aad' h
    rcases h with h | h | h
    · rename_i h
      exact absurd (fields_nil_inv (fields_peel hf2 (fields_peel hf1 h).2).2) hs2
    · rename_i h
      exact absurd (fields_nil_inv (fields_peel hf3 (fields_peel hf2 (fields_peel hf1 h).2).2).2) hs3
    · rename_i h
      obtain ⟨e1, h⟩ := fields_peel hf1 h
      obtain ⟨e2, h⟩ := fields_peel hf2 h
      obtain ⟨e3, h⟩ := fields_peel hf3 h
      obtain ⟨e4, h⟩ := fields_peel hf4 h
      exact ⟨e1, e2, e3, e4⟩

/-- Reading first and using the parts later. -/
theorem dec_readParts (g : Gcm) (h : EncHandler) (hm : h.mode = .gcm) (c : Bytes) :
    h.decrypt g c = (readParts (raw h.b64 c) >>= fun x => asRuntime (do
      let e ← EncHandler.decAad h.auth x.2.2.2 h.gcm
      let r ← e.decrypt g x.1 x.2.1 x.2.2.1
      match r with
      | none => .throw .decryptionFailed
      | some pt => .ok pt)) := by
  have hz : (if h.b64 then B64.decode c else c) = raw h.b64 c := rfl
  rw [EncHandler.decrypt, readParts]
  simp only [hz, hm]
  rcases unpack_or (raw h.b64 c) 0 with ⟨⟨iv, i⟩, h1⟩ | h1
  rotate_left
  · rw [h1]; rfl
  rw [h1, Res.ok_bind, Res.ok_bind]
  dsimp only
  rcases unpack_or (raw h.b64 c) i with ⟨⟨zct, j⟩, h2⟩ | h2
  rotate_left
  · rw [h2]; rfl
  rw [h2, Res.ok_bind, Res.ok_bind]
  dsimp only
  have : (∃ q, EncHandler.fields (raw h.b64 c) zct j = .ok q) ∨ EncHandler.fields (raw h.b64 c) zct j = .throw .outOfRange := by
    unfold EncHandler.fields
    split
    · rcases unpack_or (raw h.b64 c) j with ⟨⟨t, k⟩, h3⟩ | h3
      · rw [h3, Res.ok_bind]
        dsimp only
        split
        · rcases unpack_or (raw h.b64 c) k with ⟨⟨a, l⟩, h4⟩ | h4
          · exact Or.inl ⟨_, by rw [h4, Res.ok_bind]⟩
          · exact Or.inr (by rw [h4]; rfl)
        · exact Or.inl ⟨_, rfl⟩
      · exact Or.inr (by rw [h3]; rfl)
    · exact Or.inl ⟨_, rfl⟩
  rcases this with ⟨⟨ct, tag, aad⟩, h3⟩ | h3
  · rw [h3, Res.ok_bind, Res.ok_bind]
    rfl
  · rw [h3]; rfl

/-- The data that counts for an object with the authentication data `auth`. -/
def chosen (auth aad : Bytes) : Bytes := if auth = [] then aad else auth

/-- The result from the parts. -/
theorem dec_parts (g : Gcm) (auth : Bytes) (key : Bytes) (hk : key.length = 32) (iv ct tag aad : Bytes) :
    asRuntime (do
      let e ← EncHandler.decAad auth aad (some { key := key })
      let r ← e.decrypt g iv ct tag
      match r with
      | none => .throw .decryptionFailed
      | some pt => .ok pt) =
    if auth ≠ [] ∧ aad ≠ [] ∧ aad ≠ auth then .throw .runtimeError
    else if tag.length ≠ 16 then .throw .runtimeError
    else if iv = [] then .ub
    else if tag = g.mac key iv (authData (chosen auth aad)) ct then .ok (g.crypt key iv 0 ct) else .throw .runtimeError := by
  have ht : key.take 32 = key := List.take_of_length_le (by omega)
  have hpos : ∀ b : Bytes, 0 < b.length ↔ b ≠ [] := fun b => List.length_pos_iff
  have hlen : ∀ b : Bytes, b.length ≠ 0 ↔ b ≠ [] := fun b => by simp
  by_cases hc : auth ≠ [] ∧ aad ≠ [] ∧ aad ≠ auth
  · rw [if_pos hc, EncHandler.decAad, if_pos ⟨(hpos _).mpr hc.1, (hlen _).mpr hc.2.1, hc.2.2⟩]
    rfl
  · have hd : EncHandler.decAad auth aad (some { key := key }) =
        .ok { key := key, aad := authData (chosen auth aad), aadSet := true } := by
      rw [EncHandler.decAad, if_neg (by rw [hpos, hlen]; exact hc)]
      by_cases h1 : auth = []
      · subst h1
        by_cases h2 : aad = []
        · subst h2; rfl
        · simp [chosen, authData, AuthEnc.setAad, h2, List.length_pos_iff]
      · simp [chosen, authData, AuthEnc.setAad, h1, List.length_pos_iff]
    rw [if_neg hc, hd, Res.ok_bind, dec_cases g key _ iv ct tag (Nat.le_of_eq hk.symm), ht]
    by_cases h16 : tag.length = 16
    · simp only [h16, ne_eq, not_true_eq_false, if_false]
      by_cases hiv : iv = []
      · simp only [hiv, if_true]; rfl
      · simp only [hiv, if_false]
        by_cases hm : tag = g.mac key iv (authData (chosen auth aad)) ct
        · simp only [if_pos hm]; rfl
        · simp only [if_neg hm]; rfl
    · simp only [h16, ne_eq, not_false_eq_true, if_true]; rfl

/-- What an encryption object with a key of 32 bytes does with any byte string, whatever its authentication data. -/
theorem C147_object (g : Gcm) (hash : Bytes → Bytes) (key : Bytes) (mode : EncMode) (b64 : Bool) (h : EncHandler)
    (hn : EncHandler.new key mode b64 = .ok h) (hk : key.length = 32) (a c : Bytes) :
    let d := (h.setAuth hash a).decrypt g c
    let auth := (h.setAuth hash a).auth
    (∀ m, d = .ok m ↔ ∃ iv ct tag aad, Parts (raw b64 c) iv ct tag aad ∧ ¬ (auth ≠ [] ∧ aad ≠ [] ∧ aad ≠ auth) ∧ iv ≠ [] ∧
      tag = g.mac key iv (authData (chosen auth aad)) ct ∧ m = g.crypt key iv 0 ct) ∧
    (d = .ub ↔ ∃ ct tag aad, Parts (raw b64 c) [] ct tag aad ∧ ¬ (auth ≠ [] ∧ aad ≠ [] ∧ aad ≠ auth) ∧ tag.length = 16) ∧
    (d = .throw .outOfRange ↔ ¬ ∃ iv ct tag aad, Parts (raw b64 c) iv ct tag aad) ∧
    (d = .throw .runtimeError ↔ ∃ iv ct tag aad, Parts (raw b64 c) iv ct tag aad ∧
      ((auth ≠ [] ∧ aad ≠ [] ∧ aad ≠ auth) ∨ tag.length ≠ 16 ∨
        iv ≠ [] ∧ tag ≠ g.mac key iv (authData (chosen auth aad)) ct)) := by
  obtain ⟨-, rfl, rfl⟩ := Sym.new_enc hn
  rw [Sym.setAuth_eq]
  generalize (EncHandler.setAuth hash _ a).auth = auth
  intro d au
  have hau : au = auth := rfl
  clear_value au
  subst hau
  have hd : d = _ := dec_readParts g { b64 := b64, auth := au, mode := .gcm, gcm := some { key := key } } rfl c
  simp only [dec_parts g au key hk] at hd
  clear_value d
  rcases readParts_cases (raw b64 c) with ⟨iv, ct, tag, aad, hr, hp, huniq⟩ | ⟨hr, hn⟩
  rotate_left
  · rw [hr] at hd
    have hd : d = .throw .outOfRange := hd
    subst hd
    refine ⟨fun m => ⟨fun h => (by cases h), ?_⟩, ⟨fun h => (by cases h), ?_⟩, ⟨fun _ => hn, fun _ => rfl⟩, ⟨fun h => (by cases h), ?_⟩⟩
    · rintro ⟨iv, ct, tag, aad, hz, _⟩; exact absurd ⟨iv, ct, tag, aad, hz⟩ hn
    · rintro ⟨ct, tag, aad, hz, _⟩; exact absurd ⟨[], ct, tag, aad, hz⟩ hn
    · rintro ⟨iv, ct, tag, aad, hz, _⟩; exact absurd ⟨iv, ct, tag, aad, hz⟩ hn
  rw [hr, Res.ok_bind] at hd
  dsimp only at hd
  have hml := g.mac_length key iv (authData (chosen au aad)) ct
  have hex : ∃ iv ct tag aad, Parts (raw b64 c) iv ct tag aad := ⟨iv, ct, tag, aad, hp⟩
  by_cases hc : au ≠ [] ∧ aad ≠ [] ∧ aad ≠ au
  · rw [if_pos hc] at hd
    subst hd
    refine ⟨fun m => ⟨fun h => (by cases h), ?_⟩, ⟨fun h => (by cases h), ?_⟩, ⟨fun h => (by cases h), fun h => absurd hex h⟩,
      ⟨fun _ => ⟨iv, ct, tag, aad, hp, Or.inl hc⟩, fun _ => rfl⟩⟩
    · rintro ⟨iv', ct', tag', aad', hz, h2, _⟩
      obtain ⟨rfl, rfl, rfl, rfl⟩ := huniq _ _ _ _ hz
      exact absurd hc h2
    · rintro ⟨ct', tag', aad', hz, h2, _⟩
      obtain ⟨rfl, rfl, rfl, rfl⟩ := huniq _ _ _ _ hz
      exact absurd hc h2
  rw [if_neg hc] at hd
  by_cases h16 : tag.length = 16
  · rw [if_neg (not_not_intro h16)] at hd
    by_cases hiv : iv = []
    · rw [if_pos hiv] at hd
      subst hd
      refine ⟨fun m => ⟨fun h => (by cases h), ?_⟩, ⟨fun _ => ⟨ct, tag, aad, hiv ▸ hp, hc, h16⟩, fun _ => rfl⟩,
        ⟨fun h => (by cases h), fun h => absurd hex h⟩, ⟨fun h => (by cases h), ?_⟩⟩
      · rintro ⟨iv', ct', tag', aad', hz, _, h2, _⟩
        obtain ⟨rfl, rfl, rfl, rfl⟩ := huniq _ _ _ _ hz
        exact absurd hiv h2
      · rintro ⟨iv', ct', tag', aad', hz, h2⟩
        obtain ⟨rfl, rfl, rfl, rfl⟩ := huniq _ _ _ _ hz
        rcases h2 with h2 | h2 | h2
        · exact absurd h2 hc
        · exact absurd h16 h2
        · exact absurd hiv h2.1
    · rw [if_neg hiv] at hd
      by_cases hm : tag = g.mac key iv (authData (chosen au aad)) ct
      · rw [if_pos hm] at hd
        subst hd
        refine ⟨fun m => ⟨fun h => ?_, ?_⟩, ⟨fun h => (by cases h), ?_⟩, ⟨fun h => (by cases h), fun h => absurd hex h⟩,
          ⟨fun h => (by cases h), ?_⟩⟩
        · cases h; exact ⟨iv, ct, tag, aad, hp, hc, hiv, hm, rfl⟩
        · rintro ⟨iv', ct', tag', aad', hz, _, _, _, h2⟩
          obtain ⟨rfl, rfl, rfl, rfl⟩ := huniq _ _ _ _ hz
          rw [h2]
        · rintro ⟨ct', tag', aad', hz, _⟩
          exact absurd (huniq _ _ _ _ hz).1.symm hiv
        · rintro ⟨iv', ct', tag', aad', hz, h2⟩
          obtain ⟨rfl, rfl, rfl, rfl⟩ := huniq _ _ _ _ hz
          rcases h2 with h2 | h2 | h2
          · exact absurd h2 hc
          · exact absurd h16 h2
          · exact absurd hm h2.2
      · rw [if_neg hm] at hd
        subst hd
        refine ⟨fun m => ⟨fun h => (by cases h), ?_⟩, ⟨fun h => (by cases h), ?_⟩, ⟨fun h => (by cases h), fun h => absurd hex h⟩,
          ⟨fun _ => ⟨iv, ct, tag, aad, hp, Or.inr (Or.inr ⟨hiv, hm⟩)⟩, fun _ => rfl⟩⟩
        · rintro ⟨iv', ct', tag', aad', hz, _, _, h2, _⟩
          obtain ⟨rfl, rfl, rfl, rfl⟩ := huniq _ _ _ _ hz
          exact absurd h2 hm
        · rintro ⟨ct', tag', aad', hz, _⟩
          exact absurd (huniq _ _ _ _ hz).1.symm hiv
  · rw [if_pos h16] at hd
    subst hd
    refine ⟨fun m => ⟨fun h => (by cases h), ?_⟩, ⟨fun h => (by cases h), ?_⟩, ⟨fun h => (by cases h), fun h => absurd hex h⟩,
      ⟨fun _ => ⟨iv, ct, tag, aad, hp, Or.inr (Or.inl h16)⟩, fun _ => rfl⟩⟩
    · rintro ⟨iv', ct', tag', aad', hz, _, _, h2, _⟩
      obtain ⟨rfl, rfl, rfl, rfl⟩ := huniq _ _ _ _ hz
      exact absurd (by rw [h2]; exact hml) h16
    · rintro ⟨ct', tag', aad', hz, _, h2⟩
      obtain ⟨rfl, rfl, rfl, rfl⟩ := huniq _ _ _ _ hz
      exact absurd h2 h16

/-- A ciphertext of no bytes in two fields, accepted with any authentication data that gives this tag; and the same
string with an empty third field, which is another ciphertext. -/
example : let iv := Sym.Ex.iv16
    let tag := Sym.Ex.toy.mac Sym.Ex.key32 iv b!"meta" []
    ∃ h, EncHandler.new Sym.Ex.key32 .gcm false = .ok h ∧
      (h.setAuth id b!"meta").decrypt Sym.Ex.toy (0xA1 :: 16 :: (iv ++ 0xA1 :: 16 :: tag)) = .ok [] ∧
      (h.setAuth id b!"meta").decrypt Sym.Ex.toy (0xA1 :: 16 :: (iv ++ 0xA1 :: 16 :: (tag ++ [0]))) = .throw .runtimeError := by
  intro iv tag
  have ht : tag.length = 16 := Sym.Ex.toy.mac_length _ _ _ _
  have h2 : Field (0xA1 :: 16 :: tag) tag := .short 16 tag (by rw [ht]; rfl)
  refine ⟨_, rfl, ?_, ?_⟩
  · refine ((C147_object Sym.Ex.toy id Sym.Ex.key32 .gcm false _ rfl rfl b!"meta" _).1 _).mpr
      ⟨iv, [], tag, [], .two _ _ ?_, by decide, by decide, rfl, rfl⟩
    have := Fields.cons (Field.short 16 iv rfl) (.cons h2 (.nil []))
    simpa [raw] using this
  · refine ((C147_object Sym.Ex.toy id Sym.Ex.key32 .gcm false _ rfl rfl b!"meta" _).2.2.2).mpr
      ⟨iv, tag, [], [], .three _ _ _ ?_, Or.inr (Or.inl (by decide))⟩
    have := Fields.cons (Field.short 16 iv rfl) (.cons h2 (.cons (.other 0 (by decide) (by decide) (by decide)) (.nil [])))
    simpa [raw] using this

end SymExact
end Abe
