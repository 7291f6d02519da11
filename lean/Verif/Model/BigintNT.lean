import Verif.Model.Bigint
/-!
# Number-theoretic functions of `ack::bigint` (bigint.hpp:1010-1118, 2084-2446)
-/
namespace Ack
namespace Big

/-- `count_trailing_zero`, bigint.hpp:1010-1018: `(x, s)`.  The loop does not end for zero. -/
def ctzGo : Nat → Big → Nat → Res (Big × Nat)
  | 0, _, _ => .error .fuel
  | f + 1, x, s => if x.isEven then ctzGo f (shr x 1) (s + 1) else .ok (x, s)

/-- `count_trailing_zero`, bigint.hpp:1010-1018. -/
def countTrailingZero (x : Big) : Res (Big × Nat) := ctzGo (x.ws.length * 32 + 1) x 0

/-- Sequencing of calls that return `bool` (`none` = `false`, the caller returns `false` too). -/
def obind {α β : Type} (a : Res (Option α)) (f : α → Res (Option β)) : Res (Option β) := do
  match ← a with
  | none => .ok none
  | some v => f v

/-- `mod_mul_t::operator()`, bigint.hpp:1020-1030. -/
def modMul (cap : Cap) (m : Big) (x y : Big) : Res (Option Big) :=
  match mul? cap x y with
  | none => .ok none
  | some z => do
    match ← divMod? cap z m with
    | some (_, r) => .ok (some r)
    | none => .ok none

/-- `mod_sqr_t::operator()`, bigint.hpp:1032-1042. -/
def modSqr (cap : Cap) (m : Big) (x : Big) : Res (Option Big) := modMul cap m x x

/-- Table of `_pow`, bigint.hpp:1082-1088: `k` further entries after the entry `t` (each is the previous one times
`x`). -/
def powTblGo (mul : Big → Big → Res (Option Big)) (x : Big) : Nat → Big → Res (Option (List Big))
  | 0, t => .ok (some [t])
  | k + 1, t => obind (mul t x) fun t' => obind (powTblGo mul x k t') fun l => .ok (some (t :: l))

/-- The 15 entries `x, x^2, ..., x^15`, bigint.hpp:1081-1088. -/
def powTbl (mul : Big → Big → Res (Option Big)) (x : Big) : Res (Option (List Big)) := powTblGo mul x 14 x

/-- `k` squarings, bigint.hpp:1102-1106. -/
def sqrN (sqr : Big → Res (Option Big)) : Nat → Big → Res (Option Big)
  | 0, z => .ok (some z)
  | k + 1, z => obind (sqr z) fun z' => sqrN sqr k z'

/-- Loop over the windows of one exponent word, bigint.hpp:1101-1114; `k` windows remain, the next one is
`(v >> 4*(k-1)) & 15`. -/
def powWord (mul : Big → Big → Res (Option Big)) (sqr : Big → Res (Option Big)) (tbl : List Big) (v : Word) :
    Nat → Big → Res (Option Big)
  | 0, z => .ok (some z)
  | k + 1, z =>
    obind (sqrN sqr 4 z) fun z =>
      let idx := ((v >>> (k * 4)) &&& 15).toNat
      if idx ≠ 0 then obind (mul z (tbl.getD (idx - 1) zero)) fun z => powWord mul sqr tbl v k z
      else powWord mul sqr tbl v k z

/-- Loop over the exponent words from the top, bigint.hpp:1099-1115; the list is the exponent, top word first. -/
def powWords (mul : Big → Big → Res (Option Big)) (sqr : Big → Res (Option Big)) (tbl : List Big) :
    List Word → Big → Res (Option Big)
  | [], z => .ok (some z)
  | v :: vs, z => obind (powWord mul sqr tbl v 8 z) fun z => powWords mul sqr tbl vs z

/-- `_pow`, bigint.hpp:1047-1118; `y` is the exponent, least significant word first. -/
def powGo (mul : Big → Big → Res (Option Big)) (sqr : Big → Res (Option Big)) (x : Big) (y : List Word) :
    Res (Option Big) :=
  let n := getRealSize y
  let y0 := y.headD 0
  if n = 1 ∧ y0 = 0 then .ok (some (ofInt32 1))
  else if n = 1 ∧ y0 = 1 then .ok (some x)
  else if n = 1 ∧ y0 = 2 then sqr x
  else if n = 1 ∧ y0 = 3 then obind (sqr x) fun t => mul t x
  else if n = 1 ∧ y0 = 4 then obind (sqr x) fun z => sqr z
  else
    obind (powTbl mul x) fun tbl => powWords mul sqr tbl (y.take n).reverse (ofInt32 1)

/-- `pow(z, x, y)`, bigint.hpp:2084-2093. -/
def pow? (cap : Cap) (x y : Big) : Res (Option Big) :=
  if y.neg then .ok none
  else powGo (fun a b => .ok (mul? cap a b)) (fun a => .ok (sqr? cap a)) x y.ws

/-- member `pow(e)`, bigint.hpp:2114-2120. -/
def pow (cap : Cap) (x y : Big) : Res Big := do
  match ← pow? cap x y with
  | some z => .ok z
  | none => .error .abort

/-- member `pow(int64_t)`, bigint.hpp:2099-2112, 2122-2128. -/
def powInt64 (cap : Cap) (x : Big) (y : BitVec 64) : Res Big := do
  if y.toInt < 0 then .error .abort
  else
    let ua := cabs64 y
    let u0 : Word := ua.setWidth 32
    let u1 : Word := (ua >>> 32).setWidth 32
    match ← powGo (fun a b => .ok (mul? cap a b)) (fun a => .ok (sqr? cap a)) x (if u1 ≠ 0 then [u0, u1] else [u0]) with
    | some z => .ok z
    | none => .error .abort

/-- `modexp(z, x, y, m)`, bigint.hpp:2137-2148. -/
def modexp? (cap : Cap) (x y m : Big) : Res (Option Big) :=
  if y.neg then .ok none else powGo (modMul cap m) (modSqr cap m) x y.ws

/-- member `modexp(e, m)`, bigint.hpp:2165-2171. -/
def modexp (cap : Cap) (x y m : Big) : Res Big := do
  match ← modexp? cap x y m with
  | some z => .ok z
  | none => .error .abort

/-- member `modexp(word_t, m)`, bigint.hpp:2156-2163, 2173-2179. -/
def modexpWord (cap : Cap) (x : Big) (y : Word) (m : Big) : Res Big := do
  match ← powGo (modMul cap m) (modSqr cap m) x [y] with
  | some z => .ok z
  | none => .error .abort

/-- Loop of `modinv`, bigint.hpp:2259-2293.  The number counts the passes; see `modinv?`. -/
def modinvGo (cap : Cap) (m : Big) : Nat → (a b s t : Big) → Res (Option Big)
  | 0, _, _, _, _ => .error .fuel
  | f + 1, a, b, s, t =>
    obind (divMod? cap s t) fun (q, s) =>
      if s.isZero then
        if !t.isOne then .ok none
        else .ok (some (if b.neg then add cap b m else b))
      else
        let a := sub cap a (mul cap b q)
        obind (divMod? cap t s) fun (q, t) =>
          if t.isZero then
            if !s.isOne then .ok none
            else .ok (some (if a.neg then add cap a m else a))
          else
            let b := sub cap b (mul cap a q)
            modinvGo cap m f a b s t

/-- `modinv(y, x, m)`, bigint.hpp:2187-2297 (the `#else` branch, 2244-2296).  A pass of the loop for every bit is enough. -/
def modinv? (cap : Cap) (x m : Big) : Res (Option Big) := do
  check (!m.isZero)
  if x.isZero then .ok (if m.isOne then some (ofInt32 0) else none)
  else if x.isOne then .ok (some (if m.isOne then ofInt32 0 else ofInt32 1))
  else
    obind (divMod? cap m x) fun (q, t) =>
      if t.isZero then .ok none
      else modinvGo cap m (32 * x.ws.length) (ofInt32 1) (negate q) x t

/-- member `modinv(m)`, bigint.hpp:2299-2305. -/
def modinv (cap : Cap) (x m : Big) : Res Big := do
  match ← modinv? cap x m with
  | some y => .ok y
  | none => .error .abort

/-- Loop of `gcd`, bigint.hpp:2308-2320.  `mod(y, t, y)` leaves `y` unchanged when it fails (its flag is ignored). -/
def gcdGo (cap : Cap) : Nat → Big → Big → Res Big
  | 0, _, _ => .error .fuel
  | f + 1, x, y =>
    if y.isZero then .ok x
    else do
      match ← divMod? cap x y with
      | some (_, r) => gcdGo cap f y r
      | none => gcdGo cap f y y

/-- `gcd`, bigint.hpp:2308-2336.  Two passes of the loop for every bit of `y` and one are enough. -/
def gcd (cap : Cap) (x y : Big) : Res Big := gcdGo cap (64 * y.ws.length + 1) x y

/-- Loop of `jacobi`, bigint.hpp:2388-2405.  `start` is the flag of the same name, `j` the accumulated sign. -/
def jacobiGo (cap : Cap) : Nat → Bool → Big → Big → Int → Res Int
  | 0, _, _, _, _ => .error .fuel
  | f + 1, start, m, n, j => do
    let (m, n, j) ← (if !start then do
        let j := if m.low32 % 4 = 3 ∧ n.low32 % 4 = 3 then -j else j
        let t ← mod cap n m
        .ok (t, m, j)
      else .ok (m, n, j) : Res (Big × Big × Int))
    let (m, s) ← countTrailingZero m
    let nmod8 := n.low32 % 8
    let j := if s % 2 ≠ 0 ∧ (nmod8 = 3 ∨ nmod8 = 5) then -j else j
    if compares1 m 1 ≠ 0 then jacobiGo cap f false m n j else .ok j

/-- `jacobi`, bigint.hpp:2374-2424.  Two passes of the loop for every bit of `n` and one are enough. -/
def jacobi (cap : Cap) (m n : Big) : Res Int := do
  if n.isOne then .ok 1
  else
    let m ← (if compares1 m 0 < 0 ∨ compare m n > 0 then do
        let (_, r) ← quotRem cap m n
        .ok r
      else .ok m : Res Big)
    if m.isZero then .ok 0
    else if m.isOne then .ok 1
    else
      let g ← gcd cap m n
      if compares1 g 1 ≠ 0 then .ok 0
      else jacobiGo cap (64 * n.ws.length + 1) true m n 1

end Big
end Ack
