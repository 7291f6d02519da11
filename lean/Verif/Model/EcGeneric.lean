import Verif.Model.Ec
import Verif.Model.Utils
/-!
# Curve functions that are templates over the point type

`make_point`, `decompress_point` and `decode_point` construct a `PointU` from an affine point; `generate_point` also takes
the scalar as hexadecimal text.  Models include/ack/ec.hpp:1581-1599, 1715-1751, 1813-1839, 1929-1941.
-/
namespace Ack
open Big

/-- What the templates use of a point type: the default constructor, the constructor from an affine point, `is_valid`. -/
structure PointKind (α : Type) where
  identity : α
  ofAffine : APt → Res α
  isValid : Cap → α → Res Bool

/-- `ec_point_fp`, ec.hpp:369-599: the constructor is the copy constructor. -/
def kindA : PointKind APt := ⟨APt.identity, fun q => .ok q, APt.isValid⟩
/-- `ec_point_fp_proj`, ec.hpp:632-655, 748-763. -/
def kindP : PointKind PPt := ⟨PPt.identity, PPt.ofAffine, PPt.isValid⟩
/-- `ec_point_fp_jacobi`, ec.hpp:987-1010, 1105-1120. -/
def kindJ : PointKind JPt := ⟨JPt.identity, JPt.ofAffine, JPt.isValid⟩

namespace Curve
variable {α : Type} (k : PointKind α)

/-- `make_point<PointU>` on field elements, ec.hpp:1929-1941. -/
def makePointFe (cap : Cap) (c : Curve) (x y : Fe) (verify : Bool) : Res α := do
  let pt ← k.ofAffine ⟨some c, x, y⟩
  if verify then do
    let v ← k.isValid cap pt
    check v
  .ok pt

/-- `make_point<PointU>` on integers, ec.hpp:1649-1660, 1678-1689 (the second check of the first overload repeats the first). -/
def makePointU (cap : Cap) (c : Curve) (x y : Big) (verify : Bool) : Res α := do
  check (c.isValidInteger x)
  check (c.isValidInteger y)
  let fx ← c.makeFe x false
  let fy ← c.makeFe y false
  makePointFe k cap c fx fy verify

/-- `compute_y(IntT, odd, verify)`, ec.hpp:1716-1718. -/
def computeYInt (cap : Cap) (c : Curve) (x : Big) (odd verify : Bool) : Res Fe := do
  let x ← c.makeFe x verify
  computeY cap c x odd

/-- `decompress_point<PointT>`, ec.hpp:1728-1736. -/
def decompressU (cap : Cap) (c : Curve) (x : Fe) (odd : Bool) : Res α := do
  let y ← computeY cap c x odd
  if y.isZero then .ok k.identity
  else makePointFe k cap c x y false

/-- `decompress_point<PointT>(IntT, yodd, verify)`, ec.hpp:1747-1751. -/
def decompressIntU (cap : Cap) (c : Curve) (x : Big) (odd verify : Bool) : Res α := do
  let x ← c.makeFe x verify
  decompressU k cap c x odd

/-- `decode_point<PointT>`, ec.hpp:1812-1839. -/
def decodeU (cap : Cap) (c : Curve) (e : List Byte) : Res α := do
  check (!e.isEmpty)
  let type := e.headD 0
  check (decide (type.toNat ≤ 4) && type != 1)
  let plen := c.p.byteLength
  if type = 2 ∨ type = 3 then do
    check (e.length == plen + 1)
    let x ← ofBytes cap ((e.drop 1).take plen)
    decompressIntU k cap c x ((type &&& 1) == 1) false
  else if type = 4 then do
    check (e.length == 2 * plen + 1)
    let x ← ofBytes cap ((e.drop 1).take plen)
    let y ← ofBytes cap ((e.drop (1 + plen)).take plen)
    makePointU k cap c x y false
  else .ok k.identity

/-- `generate_point(std::string_view)`, ec.hpp:1581-1585, for affine points. -/
def generateHexA (cap : Cap) (c : Curve) (s : List Byte) : Res APt := do
  let x ← Big.ofHex cap s
  c.generateA cap x
/-- `generate_point<ec_point_fp_proj>(std::string_view)`, ec.hpp:1581-1585. -/
def generateHexP (cap : Cap) (c : Curve) (s : List Byte) : Res PPt := do
  let x ← Big.ofHex cap s
  c.generateP cap x
/-- `generate_point<ec_point_fp_jacobi>(std::string_view)`, ec.hpp:1581-1585. -/
def generateHexJ (cap : Cap) (c : Curve) (s : List Byte) : Res JPt := do
  let x ← Big.ofHex cap s
  c.generateJ cap x

/-- `generate_point(const char (&)[N])`, ec.hpp:1595-1599: the view has length `N` and includes the terminator. -/
def generateLitA (cap : Cap) (c : Curve) (s : List Byte) : Res APt := c.generateHexA cap (s ++ [0])
/-- `generate_point<ec_point_fp_proj>(const char (&)[N])`, ec.hpp:1595-1599. -/
def generateLitP (cap : Cap) (c : Curve) (s : List Byte) : Res PPt := c.generateHexP cap (s ++ [0])
/-- `generate_point<ec_point_fp_jacobi>(const char (&)[N])`, ec.hpp:1595-1599. -/
def generateLitJ (cap : Cap) (c : Curve) (s : List Byte) : Res JPt := c.generateHexJ cap (s ++ [0])

end Curve
end Ack
