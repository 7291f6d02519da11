import Verif.Model.Utils
import Verif.Model.Named
/-!
# Array import and export, and the compile-time path of byte import

Models `convert_array_as`, `set_array` and `get_array` of include/ack/bigint.hpp and the branches that run in constant
evaluation (`std::is_constant_evaluated()`).  Elements of `sz` bytes are `BitVec (8 * sz)`; the element types of the code
have `sz ∈ {1, 2, 4, 8}`.
-/
namespace Ack
namespace Big

/-- Inner loop of `convert_array_as` for elements not wider than a word, bigint.hpp:747-750: `n` elements are left for this
word, the next one goes to bit `8 * j`; behind the end of the source zeros are read. -/
def packWord (sz : Nat) : (n j : Nat) → (src : List (BitVec (8 * sz))) → (u : Word) → Word × List (BitVec (8 * sz))
  | 0, _, src, u => (u, src)
  | n + 1, j, [], u => packWord sz n (j + sz) [] (u ||| ((0 : Word) <<< (8 * j)))
  | n + 1, j, s :: src, u => packWord sz n (j + sz) src (u ||| (s.setWidth 32 <<< (8 * j)))

/-- Outer loop for elements not wider than a word, bigint.hpp:745-752. -/
def packLoop (sz : Nat) : (dstLen : Nat) → (src : List (BitVec (8 * sz))) → List Word
  | 0, _ => []
  | k + 1, src =>
    let (u, src) := packWord sz (4 / sz) 0 src 0
    u :: packLoop sz k src

/-- Inner loop for elements wider than a word, bigint.hpp:736-739: `n` words of `s`, low word first. -/
def splitElem (sz : Nat) : (n : Nat) → (s : BitVec (8 * sz)) → List Word
  | 0, _ => []
  | n + 1, s => s.setWidth 32 :: splitElem sz n (s >>> 32)

/-- `convert_array_as<word_t, S>`, bigint.hpp:719-755; `none` is the return value `false`.  `get_src_elem(i)` reads the source
from its end when it is big-endian. -/
def convertArrayAs (sz dstLen : Nat) (src : List (BitVec (8 * sz))) (bigendian : Bool) : Option (List Word) :=
  if 4 * dstLen < sz * src.length then none
  else
    let src := if bigendian then src.reverse else src
    if 4 < sz then
      let ws := src.flatMap (splitElem sz (sz / 4))
      some (ws ++ List.replicate (dstLen - ws.length) 0)
    else some (packLoop sz dstLen src)

/-- `get_word_size<S>(size)`, utils.hpp:45-48. -/
def arrayWordSize (sz n : Nat) : Nat := (n * sz + 3) / 4

/-- `set_array`, bigint.hpp:1333-1354; `none` is the return value `false`. -/
def setArray (cap : Cap) (sz : Nat) (x : List (BitVec (8 * sz))) (bigendian : Bool) : Option Big :=
  if x.length = 0 then some zero
  else if cap.fits (arrayWordSize sz x.length) then
    match convertArrayAs sz (arrayWordSize sz x.length) x bigendian with
    | some ws => some (trim false ws)
    | none => none
  else none

/-- `get_array`, bigint.hpp:1363-1373: `x` is the array before the call (`max_size` words); `none` is the return value `false`. -/
def getArray (a : Big) (x : List Word) : Option (List Word) :=
  if a.ws.length > x.length then none else some (a.ws ++ List.replicate (x.length - a.ws.length) 0)

/-- `set_bytes` in constant evaluation, bigint.hpp:1382-1394. -/
def setBytesCx (cap : Cap) (data : List Byte) : Option Big :=
  if data.length = 0 then some zero else setArray cap 1 data true

/-- `bigint(const char (&)[N])`, bigint.hpp:1209-1213, in constant evaluation; a failing check does not compile. -/
def ofHexLitCx (cap : Cap) (s : List Byte) : Res Big := do
  let d ← fromHexLit s
  match setBytesCx cap d with
  | some x => .ok x
  | none => .error .abort

end Big

/-- Capacity of the integers of a named curve in constant evaluation, ec_curve.hpp:25-35 and buffer.hpp:217-223: a flexbuffer
refuses to grow beyond its inline array. -/
def CurveParams.capCx (q : CurveParams) (wasm : Bool) : Cap :=
  if wasm ∧ 512 ≤ q.bits then some (bitsizeToWordsize q.bits) else some (bitsizeToWordsize (bitsizeToWordsize q.bits * 32 * 2))

/-- The curve object the compiler builds (the curves are `constexpr`), ec_curve.hpp:25-35. -/
def CurveParams.buildCx (q : CurveParams) (wasm : Bool) (addr : Nat) : Res Curve := do
  let p ← Big.ofHexLitCx (q.capCx wasm) (chars q.p)
  let a ← Big.ofHexLitCx (q.capCx wasm) (chars q.a)
  let b ← Big.ofHexLitCx (q.capCx wasm) (chars q.b)
  let gx ← Big.ofHexLitCx (q.capCx wasm) (chars q.gx)
  let gy ← Big.ofHexLitCx (q.capCx wasm) (chars q.gy)
  let n ← Big.ofHexLitCx (q.capCx wasm) (chars q.n)
  Curve.make (q.capCx wasm) addr p a b gx gy n q.h

end Ack
