import Verif.Model.BigintOps
/-!
# Model of utils.hpp, types.hpp, span_ext.hpp and public_key.hpp

Strings and buffers are byte lists.  A null pointer with a non-zero length (which `from_hex` rejects, utils.hpp:111) has no
counterpart.  Writes through the output pointer check the bounds of the buffer and are undefined behaviour outside.
-/
namespace Ack
open Big (Byte)

/-- `from_hex(char)`, utils.hpp:95-104.  Both signednesses of `char` give the same answer. -/
def fromHexChar (c : Byte) : Res Byte :=
  if 0x30 ≤ c ∧ c ≤ 0x39 then .ok (c - 0x30)
  else if 0x61 ≤ c ∧ c ≤ 0x66 then .ok (c - 0x61 + 10)
  else if 0x41 ≤ c ∧ c ≤ 0x46 then .ok (c - 0x41 + 10)
  else .error .abort

/-- `*out_pos = b`. -/
def putByte (out : List Byte) (pos : Nat) (b : Byte) : Res (List Byte) :=
  if pos < out.length then .ok (out.set pos b) else .error .ub

/-- The `while` loop of `from_hex`, utils.hpp:136-144, over the characters from `in` to `in_end`. -/
def hexLoop : (s out : List Byte) → (pos : Nat) → Res (List Byte × Nat)
  | [], out, pos => .ok (out, pos)
  | [c], out, pos =>
    if pos = out.length then .ok (out, pos)
    else do
      let h ← fromHexChar c
      let out ← putByte out pos (h <<< 4)
      .ok (out, pos + 1)
  | c :: d :: t, out, pos =>
    if pos = out.length then .ok (out, pos)
    else do
      let h ← fromHexChar c
      let l ← fromHexChar d
      let out ← putByte out pos ((h <<< 4) ||| l)
      hexLoop t out (pos + 1)

/-- `from_hex(hex_str, hex_str_len, out_data, out_data_len)`, utils.hpp:106-147: the output buffer afterwards and the
number of bytes.  `out = []` stands for a null or empty output. -/
def fromHexBuf (s out : List Byte) : Res (List Byte × Nat) :=
  if s.length = 0 then .ok (out, 0)
  else
    let s := if s.getLast? = some 0 then s.dropLast else s
    if out.length = 0 then .ok (out, (s.length + 1) / 2)
    else do
      check (decide ((s.length + 1) / 2 ≤ out.length))
      if s.length % 2 ≠ 0 then
        match s with
        | [] => .error .ub
        | c :: t => do
          let h ← fromHexChar c
          let out ← putByte out 0 h
          hexLoop t out 1
      else hexLoop s out 0

/-- `from_hex(hex_str, len)` and its string overloads and literal operator, utils.hpp:157-169, 188-190. -/
def fromHex (s : List Byte) : Res (List Byte) := do
  let (_, n) ← fromHexBuf s []
  let (d, k) ← fromHexBuf s (List.replicate n 0)
  check (k == n)
  .ok d

/-- `from_hex<N>(string_view)`, utils.hpp:171-181. -/
def fromHexFixed (N : Nat) (s : List Byte) : Res (List Byte) :=
  if s.length = 0 then .ok (List.replicate N 0)
  else do
    let (_, n) ← fromHexBuf s []
    check (decide (n ≤ N))
    let (d, k) ← fromHexBuf s (List.replicate N 0)
    check (k == n)
    .ok d

/-- `from_hex(const char (&)[N])`, utils.hpp:183-186; `s` is the literal without its terminator, so `N = s.length + 1`. -/
def fromHexLit (s : List Byte) : Res (List Byte) := fromHexFixed ((s.length + 1) / 2) s

/-- `bigint(std::string_view)`, bigint.hpp:1198-1201. -/
def Big.ofHex (cap : Cap) (s : List Byte) : Res Big := do
  let d ← fromHex s
  Big.ofBytes cap d

/-- `bigint(const char (&)[N])`, bigint.hpp:1209-1213: `from_hex<N>` selects the overload for literals. -/
def Big.ofHexLit (cap : Cap) (s : List Byte) : Res Big := do
  let d ← fromHexLit s
  Big.ofBytes cap d

/-- The characters of a string (ASCII). -/
def chars (s : String) : List Byte := s.toList.map fun c => BitVec.ofNat 8 c.toNat

/-! ## memxor -/

/-- Loads four bytes as a little-endian word (`memcpy`, utils.hpp:192-197). -/
def ld32 (a b c d : Byte) : Word := d ++ c ++ b ++ a

/-- Stores a word as four bytes (`memcpy`, utils.hpp:199-204). -/
def st32 (w : Word) : List Byte := [w.extractLsb' 0 8, w.extractLsb' 8 8, w.extractLsb' 16 8, w.extractLsb' 24 8]

/-- One word of the block: `x[j] ^= y[j]`. -/
def xorWord : (x y : List Byte) → Res (List Byte)
  | [a, b, c, d], [e, f, g, h] => .ok (st32 (ld32 a b c d ^^^ ld32 e f g h))
  | _, _ => .error .ub

/-- One block of 16 bytes, utils.hpp:217-227. -/
def xorBlock (x y : List Byte) : Res (List Byte) := do
  let a ← xorWord (x.take 4) (y.take 4)
  let b ← xorWord ((x.drop 4).take 4) ((y.drop 4).take 4)
  let c ← xorWord ((x.drop 8).take 4) ((y.drop 8).take 4)
  let d ← xorWord ((x.drop 12).take 4) ((y.drop 12).take 4)
  .ok (a ++ b ++ c ++ d)

/-- The block loop, utils.hpp:215-228 (`i != num_blocks; i += block_size`). -/
def xorBlocks (src : List Byte) (nb : Nat) : (fuel i : Nat) → (dst : List Byte) → Res (List Byte)
  | 0, _, _ => .error .fuel
  | f + 1, i, dst =>
    if i = nb then .ok dst
    else if i + 16 ≤ dst.length ∧ i + 16 ≤ src.length then do
      let b ← xorBlock ((dst.drop i).take 16) ((src.drop i).take 16)
      xorBlocks src nb f (i + 16) (dst.take i ++ b ++ dst.drop (i + 16))
    else .error .ub

/-- The tail loop, utils.hpp:231-233. -/
def xorTail (src : List Byte) (num : Nat) : (fuel i : Nat) → (dst : List Byte) → Res (List Byte)
  | 0, _, _ => .error .fuel
  | f + 1, i, dst =>
    if i = num then .ok dst
    else match dst[i]?, src[i]? with
      | some a, some b => xorTail src num f (i + 1) (dst.set i (a ^^^ b))
      | _, _ => .error .ub

/-- `memxor`, utils.hpp:206-234: the destination afterwards.  The source is a separate buffer. -/
def memxor (dst src : List Byte) (num : Nat) : Res (List Byte) := do
  let num := min (min num dst.length) src.length
  let nb := num - num % 16
  let dst ← xorBlocks src nb (num + 1) 0 dst
  xorTail src num (num + 1) nb dst

/-! ## Serialisation of byte views

`eosio::unsigned_int` and `eosio::datastream` are not part of the repository; their encoding (seven bits per byte, least
significant first, top bit set on all but the last) is modelled from the documented EOSIO wire format. -/

/-- Encoding of `eosio::unsigned_int`. -/
def putVar : (fuel : Nat) → (v : Nat) → Res (List Byte)
  | 0, _ => .error .fuel
  | f + 1, v =>
    if v / 128 = 0 then .ok [BitVec.ofNat 8 v]
    else do
      let t ← putVar f (v / 128)
      .ok (BitVec.ofNat 8 (v % 128 + 128) :: t)

/-- Decoding of `eosio::unsigned_int`: the value as `uint32_t` and the rest of the stream.  Reading past the end aborts; a
shift distance of 32 or more is undefined. -/
def getVar : (fuel by_ : Nat) → (acc : BitVec 32) → List Byte → Res (BitVec 32 × List Byte)
  | 0, _, _, _ => .error .fuel
  | _ + 1, _, _, [] => .error .abort
  | f + 1, by_, acc, b :: t =>
    if 32 ≤ by_ then .error .ub
    else
      let acc := acc ||| ((b &&& 0x7f).setWidth 32 <<< by_)
      if b &&& 0x80 = 0 then .ok (acc, t) else getVar f (by_ + 7) acc t

/-- `operator<<(ds, bytes_view)`, types.hpp:38-42: what is appended to the stream.  `unsigned_int` is 32 bits wide. -/
def serView (d : List Byte) : Res (List Byte) := do
  let l ← putVar 6 (d.length % 2 ^ 32)
  .ok (l ++ d)

/-- `operator>>(ds, bytes_view&)`, types.hpp:44-53: the view and the rest of the stream.  The code does not compare the
length with what is left: the view then reaches past the end of the stream, which is undefined when it is read. -/
def deserView (st : List Byte) : Res (List Byte × List Byte) := do
  let (n, t) ← getVar 6 0 0 st
  if n.toNat ≤ t.length then .ok (t.take n.toNat, t.drop n.toNat) else .error .ub

/-! ## Spans and keys -/

/-- A byte view: the address and the bytes there. -/
structure Span where
  addr : Nat
  data : List Byte
deriving DecidableEq, Repr

/-- `operator==` on spans, span_ext.hpp:11-20. -/
def Span.eq (a b : Span) : Bool :=
  if a.addr = b.addr then a.data.length == b.data.length else a.data == b.data

/-- `rsa_public_key_view`, public_key.hpp:55-71. -/
structure RsaKeyView where
  modulus : Span
  exponent : Span
deriving DecidableEq, Repr

/-- `rsa_pss_public_key_view`, public_key.hpp:73-113. -/
structure RsaPssKeyView extends RsaKeyView where
  saltLen : Option (BitVec 32)
deriving DecidableEq, Repr

/-- `operator==`, public_key.hpp:115-117. -/
def RsaKeyView.eq (a b : RsaKeyView) : Bool := a.exponent.eq b.exponent && a.modulus.eq b.modulus

/-- `operator==`, public_key.hpp:119-121. -/
def RsaPssKeyView.eq (a b : RsaPssKeyView) : Bool :=
  a.exponent.eq b.exponent && a.modulus.eq b.modulus && a.saltLen == b.saltLen

/-- `get_word_size<T>(size)`, utils.hpp:45-47, for elements of `sz` bytes. -/
def getWordSize (sz size : Nat) : Nat := (size * sz + 3) / 4

/-- `bitsize_to_wordsize`, utils.hpp:91-93. -/
def bitsizeToWordsize (n : Nat) : Nat := (n + 31) / 32

end Ack
