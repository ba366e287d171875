import Verif.Model.Scheme
/-!
# Products of pairings on the stack (src/abe/zpairing.cpp, schemes/zcontextcpwaters.cpp, zcontextkpgpsw.cpp)

`Scheme.multiPairing` takes the list of pairs. The code has two vectors and copies them into two arrays on the stack, whose size is the
number of rows that decryption uses. Here decryption runs with these arrays and with a stack of given size.
-/
set_option autoImplicit false
namespace Abe
namespace PairStack
open Scheme

variable {G1 G2 GT : Type} {q : Nat} [Fact q.Prime]
variable [AddCommGroup G1] [Module (ZMod q) G1] [AddCommGroup G2] [Module (ZMod q) G2] [AddCommGroup GT]
  [Module (ZMod q) GT]

/-- `sizeof(g1_t)` and `sizeof(g2_t)`, which depend on the curve RELIC was built for. -/
structure Sizes where
  g1 : Nat
  g2 : Nat

/-- Room for one pair. -/
def Sizes.pair (z : Sizes) : Nat := z.g1 + z.g2

/-- zpairing.cpp:206-211, one of the two copies of the loop: `n` entries are left, `i` is the next; `vector::at` beyond the end throws
an exception that nobody catches. -/
def copy {α : Type} (v : List α) : Nat → Nat → List α → Res (List α)
  | 0, _, arr => .ok arr
  | n + 1, i, arr =>
    match v[i]? with
    | none => .abort
    | some x => copy v n (i + 1) (arr ++ [x])

/-- zpairing.cpp:197-217 `multi_pairing` with `stack` bytes left; `pc_map_sim` multiplies the pairings of the entries of both arrays.
An array beyond the stack is undefined. -/
def multiPairing (z : Sizes) (stack : Nat) (env : Env G1 G2 GT) (g1 : List G1) (g2 : List G2) : Res GT :=
  if g1.length ≠ g2.length ∨ g1.length = 0 then .throw .invalidLength
  else
    let n := g1.length
    if stack < n * z.g1 + n * z.g2 then .ub
    else do
      let a ← copy g1 n 0 []
      let b ← copy g2 n 0 []
      .ok ((List.zipWith env.e a b).sum)

/-- zcontextcpwaters.cpp:342-357, the loop over the rows with its two vectors. -/
def cpDecLoop (env : Env G1 G2 GT) (key ct : Container G1 G2 GT) : List (Bytes × (Bytes × ZMod q)) → G1 →
    List G1 → List G2 → Res (G1 × List G1 × List G2)
  | [], prod1, g1, g2 => .ok (prod1, g1, g2)
  | row :: rows, prod1, g1, g2 => do
    let Kx ← getG1 key (elementLabel b!"KX" (hashKey env.md row.2.1))
    let Cx ← notNull (← getG1 ct (elementLabel b!"C" (hashKey env.md row.1)))
    let Dx ← notNull (← getG2 ct (elementLabel b!"D" (hashKey env.md row.1)))
    let Kx ← deref Kx
    cpDecLoop env key ct rows (prod1 + row.2.2 • Cx) (g1 ++ [row.2.2 • Kx]) (g2 ++ [Dx])

/-- zcontextcpwaters.cpp:318-370, `decryptKEM` without its lookup of the key. -/
def cpDecBody (q : Nat) [Fact q.Prime] [Module (ZMod q) G1] (z : Sizes) (stack : Nat) (env : Env G1 G2 GT) (c : Ctx G1 G2 GT)
    (key : Container G1 G2 GT) (ct : Container G1 G2 GT) (len : Nat) : Res Bytes := do
  let inp ← (Container.getComponent key b!"input").1
  let text ← notNull (← getBytes ct b!"policy")
  let pol ← createPolicyTree env.mktime text
  let attrs ← castAttrs inp
  let (good, o, _) ← recoverCoefficients (F := ZMod q) env.sort env.ndebug {} pol attrs.attrs
  if good = false then .throw .decryptionFailed
  else do
    let (prod1, g1, g2) ← cpDecLoop env key ct o.results 0 [] []
    usePairing c
    let prodT ← multiPairing z stack env g1 g2
    let Cprime ← getG1 ct b!"Cprime"
    let K ← getG2 key b!"K"
    let L ← getG2 key b!"L"
    let Cprime ← notNull Cprime
    let K ← notNull K
    let L ← notNull L
    symKeyOf env (env.e Cprime K - (prodT + env.e prod1 L)) len

/-- zcontextkpgpsw.cpp:321-338, the loop over the rows with its two vectors. -/
def kpDecLoop (env : Env G1 G2 GT) (key ct : Container G1 G2 GT) : List (Bytes × (Bytes × ZMod q)) → G1 →
    List G1 → List G2 → Res (G1 × List G1 × List G2)
  | [], prod1, g1, g2 => .ok (prod1, g1, g2)
  | row :: rows, prod1, g1, g2 => do
    let Ci ← getG1 ct (elementLabel b!"C" (hashKey env.md row.2.1))
    let di ← getG2 key (elementLabel b!"d" (hashKey env.md row.1))
    let Di ← getG1 key (elementLabel b!"D" (hashKey env.md row.1))
    let Di ← deref Di
    let Ci ← deref Ci
    let di ← deref di
    kpDecLoop env key ct rows (prod1 + row.2.2 • Di) (g1 ++ [row.2.2 • Ci]) (g2 ++ [di])

/-- zcontextkpgpsw.cpp:297-347, `decryptKEM` without its lookup of the key. -/
def kpDecBody (q : Nat) [Fact q.Prime] [Module (ZMod q) G1] (z : Sizes) (stack : Nat) (env : Env G1 G2 GT) (c : Ctx G1 G2 GT)
    (key : Container G1 G2 GT) (ct : Container G1 G2 GT) (len : Nat) : Res Bytes := do
  let text ← notNull (← getBytes key b!"input")
  let pol ← createPolicyTree env.mktime text
  let inp ← (Container.getComponent ct b!"attributes").1
  let attrs ← castAttrs inp
  let (good, o, _) ← recoverCoefficients (F := ZMod q) env.sort env.ndebug {} pol attrs.attrs
  if good = false then .throw .decryptionFailed
  else do
    let (prod1, g1, g2) ← kpDecLoop env key ct o.results 0 [] []
    usePairing c
    let prodT ← multiPairing z stack env g1 g2
    let Cpr2 ← notNull (← getG2 ct b!"Cpr2")
    symKeyOf env (env.e prod1 Cpr2 - prodT) len

/-- zcontextcpwaters.cpp:304-377, zcontextkpgpsw.cpp:285-354 `decryptKEM`. The master public key id is not used. -/
def decryptKEM (q : Nat) [Fact q.Prime] [Module (ZMod q) G1] (z : Sizes) (stack : Nat) (env : Env G1 G2 GT) (sch : Scheme)
    (c : Ctx G1 G2 GT) (keyID : Bytes) (ct : Ciphertext G1 G2 GT) (len : Nat) : Res (Except Err Bytes × Ctx G1 G2 GT) := do
  let sk := c.ks.getSecretKey keyID
  let res ← caught (match sk.1 with
    | none => .throw .invalidInput
    | some key => match sch with
      | .cp => cpDecBody q z stack env c key.comps ct.comps len
      | .kp => kpDecBody q z stack env c key.comps ct.comps len)
  .ok (res, { c with ks := sk.2 })

/-- zcontextabe.cpp:352-385 `decrypt`. The mask is that of `Scheme.hashFromBytes`; its own array is the subject of Model/MaskSize. -/
def decrypt (q : Nat) [Fact q.Prime] [Module (ZMod q) G1] (z : Sizes) (stack : Nat) (env : Env G1 G2 GT) (sch : Scheme)
    (c : Ctx G1 G2 GT) (keyID : Bytes) (ct : Ciphertext G1 G2 GT) : Res (Option Err × Bytes × Ctx G1 G2 GT) := do
  let (res, c1) ← decryptKEM q z stack env sch c keyID ct symKeyBytes
  let out ← caught (match res with
    | .error e => .throw e
    | .ok K => do
      let ed ← getBytes ct.comps b!"_ED"
      let enc ← notNull ed
      let mask := hashFromBytes env.md K enc.length schemeHashPrefix
      BS.xorAssign enc mask)
  match out with
  | .error e => .ok (some e, [], c1)
  | .ok p => .ok (none, p, c1)

end PairStack
end Abe
