import Verif.Model.BigintNT
/-!
# The operators of `ack::bigint` (include/ack/bigint.hpp:2448-2596)

Relational operators, increments and the overloads for 64-bit native integers.  The overloads for `int`/`word_t` are
the functions `adds1`, `addu1`, ... of `Model/Bigint.lean`.
-/
namespace Ack
namespace Big

/-- `operator==(bigint, bigint)`, bigint.hpp:2457. -/
def opEq (x y : Big) : Bool := compare x y == 0
/-- `operator!=(bigint, bigint)`, bigint.hpp:2467. -/
def opNe (x y : Big) : Bool := !opEq x y
/-- `operator<(bigint, bigint)`, bigint.hpp:2477. -/
def opLt (x y : Big) : Bool := decide (compare x y < 0)
/-- `operator>(bigint, bigint)`, bigint.hpp:2497. -/
def opGt (x y : Big) : Bool := decide (compare x y > 0)
/-- `operator<=(bigint, bigint)`, bigint.hpp:2487. -/
def opLe (x y : Big) : Bool := !opGt x y
/-- `operator>=(bigint, bigint)`, bigint.hpp:2507. -/
def opGe (x y : Big) : Bool := !opLt x y

/-- `operator==(bigint, int)`, bigint.hpp:2453, 2458. -/
def eqS (x : Big) (y : BitVec 32) : Bool := compares1 x y == 0
/-- `operator<(bigint, int)`, bigint.hpp:2473, and `int > bigint` 2498. -/
def ltS (x : Big) (y : BitVec 32) : Bool := decide (compares1 x y < 0)
/-- `operator>(bigint, int)`, bigint.hpp:2493, and `int < bigint` 2478. -/
def gtS (x : Big) (y : BitVec 32) : Bool := decide (compares1 x y > 0)

/-- `operator==(bigint, uint32_t)`, bigint.hpp:2454, 2459. -/
def eqU (x : Big) (y : Word) : Bool := compareu1 x y == 0
/-- `operator<(bigint, uint32_t)`, bigint.hpp:2474, and `uint32_t > bigint` 2499. -/
def ltU (x : Big) (y : Word) : Bool := decide (compareu1 x y < 0)
/-- `operator>(bigint, uint32_t)`, bigint.hpp:2494, and `uint32_t < bigint` 2479. -/
def gtU (x : Big) (y : Word) : Bool := decide (compareu1 x y > 0)

/-- `operator==(bigint, int64_t)`, bigint.hpp:2455. -/
def eqS64 (cap : Cap) (x : Big) (y : BitVec 64) : Res Bool := do .ok (opEq x (← ofInt64 cap y))
/-- `operator<(bigint, int64_t)`, bigint.hpp:2475. -/
def ltS64 (cap : Cap) (x : Big) (y : BitVec 64) : Res Bool := do .ok (opLt x (← ofInt64 cap y))
/-- `operator==(bigint, uint64_t)`, bigint.hpp:2456. -/
def eqU64 (cap : Cap) (x : Big) (y : BitVec 64) : Res Bool := do .ok (opEq x (← ofU64 cap y))
/-- `operator<(bigint, uint64_t)`, bigint.hpp:2476. -/
def ltU64 (cap : Cap) (x : Big) (y : BitVec 64) : Res Bool := do .ok (opLt x (← ofU64 cap y))

/-- `++x`, bigint.hpp:2448, 2450. -/
def incr (cap : Cap) (x : Big) : Big := adds1 cap x 1
/-- `--x`, bigint.hpp:2449, 2451. -/
def decr (cap : Cap) (x : Big) : Big := subs1 cap x 1

/-- `x + int64_t`, bigint.hpp:2515, 2521. -/
def addS64 (cap : Cap) (x : Big) (y : BitVec 64) : Res Big := do .ok (add cap x (← ofInt64 cap y))
/-- `x + uint64_t`, bigint.hpp:2516, 2522. -/
def addU64 (cap : Cap) (x : Big) (y : BitVec 64) : Res Big := do .ok (add cap x (← ofU64 cap y))
/-- `x - int64_t`, bigint.hpp:2527, 2533. -/
def subS64 (cap : Cap) (x : Big) (y : BitVec 64) : Res Big := do .ok (sub cap x (← ofInt64 cap y))
/-- `x - uint64_t`, bigint.hpp:2528, 2534. -/
def subU64 (cap : Cap) (x : Big) (y : BitVec 64) : Res Big := do .ok (sub cap x (← ofU64 cap y))
/-- `x * int64_t`, bigint.hpp:2541. -/
def mulS64 (cap : Cap) (x : Big) (y : BitVec 64) : Res Big := do .ok (mul cap x (← ofInt64 cap y))
/-- `x * uint64_t`, bigint.hpp:2542. -/
def mulU64 (cap : Cap) (x : Big) (y : BitVec 64) : Res Big := do .ok (mul cap x (← ofU64 cap y))
/-- `x / int64_t`, bigint.hpp:2553. -/
def divS64 (cap : Cap) (x : Big) (y : BitVec 64) : Res Big := do div cap x (← ofInt64 cap y)
/-- `x / uint64_t`, bigint.hpp:2554. -/
def divU64 (cap : Cap) (x : Big) (y : BitVec 64) : Res Big := do div cap x (← ofU64 cap y)
/-- `x % int64_t`, bigint.hpp:2565. -/
def modS64 (cap : Cap) (x : Big) (y : BitVec 64) : Res Big := do mod cap x (← ofInt64 cap y)
/-- `x % uint64_t`, bigint.hpp:2566. -/
def modU64 (cap : Cap) (x : Big) (y : BitVec 64) : Res Big := do mod cap x (← ofU64 cap y)
/-- `x %= int64_t`, bigint.hpp:2571: the text calls `div`. -/
def modAssignS64 (cap : Cap) (x : Big) (y : BitVec 64) : Res Big := do div cap x (← ofInt64 cap y)
/-- `x %= uint64_t`, bigint.hpp:2572: the text calls `div`. -/
def modAssignU64 (cap : Cap) (x : Big) (y : BitVec 64) : Res Big := do div cap x (← ofU64 cap y)

end Big
end Ack
