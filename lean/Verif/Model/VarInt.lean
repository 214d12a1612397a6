import Verif.Model.Basic
/-!
# Variable byte integers

Source: `/repo/mqrstt/src/packets/primitive/variable_integer.rs`.
The `usize` (54-150) and `u32` (152-248) implementations are the same code at two widths;
no intermediate value exceeds 2^28, so one definition on `Nat` models both.
-/

namespace Mqrstt.VarInt

/-- `variable_integer_len`, variable_integer.rs 55-65 (u32: 153-163). -/
def len (n : Nat) : Nat :=
  if n ≥ 2097152 then 4 else if n ≥ 16384 then 3 else if n ≥ 128 then 2 else 1

/-- Body of the `for i in 0..4` loop of `write_variable_integer`, variable_integer.rs 74-84: the first argument
counts the iterations left, `none` is falling out of the loop. -/
def writeLoop : Nat → Nat → Option Bytes
  | 0, _ => none
  | k + 1, w =>
    let byte := UInt8.ofNat (w % 128)
    let w' := w / 128
    let byte := if w' > 0 then byte ||| 128 else byte
    if w' = 0 then some [byte]
    else (writeLoop k w').map (byte :: ·)

/-- `write_variable_integer`, variable_integer.rs 67-86 (u32: 165-184). -/
def write (n : Nat) : Wr :=
  if n > 268435455 then .error (.variableIntegerOverflow n)
  else match writeLoop 4 n with
    | some bs => .ok bs
    | none => .error (.variableIntegerOverflow n)

/-- `write_async_variable_integer`, variable_integer.rs 125-149 (u32: 223-247). The loop fills `buf` and sets
`length`; when it falls through (impossible below the bound) `length` would stay 1: modelled by
the first byte only. -/
def asyncWrite (n : Nat) : AWr :=
  if n > 268435455 then .error (.variableIntegerOverflow n)
  else match writeLoop 4 n with
    | some bs => .ok (bs, bs.length)
    | none => .ok ([UInt8.ofNat (n % 128) ||| 128], 1)

/-- The `for i in 0..4` read loop shared by all readers: `k` iterations left, `i` done,
`integer` accumulated; `miss` is what happens when there is no further byte. Returns the value
and the number of bytes read: variable_integer.rs 29-45, 88-106, 108-123. -/
def readLoop (miss : Fail) : (k i integer : Nat) → Rd (Nat × Nat)
  | 0, _, _ => fun _ => .error (.de .malformedPacket)
  | k + 1, i, integer => fun b =>
    match b with
    | [] => .error miss
    | byte :: b =>
      let integer := integer + ((byte.toNat &&& 0x7f) <<< (7 * i))
      if byte &&& 0b10000000 = 0 then .ok ((integer, i + 1), b)
      else readLoop miss k (i + 1) integer b

/-- `read_variable_integer`, variable_integer.rs 88-106 (u32: 186-204): an exhausted buffer is `MalformedPacket`. -/
def read : Rd (Nat × Nat) := readLoop (.de .malformedPacket) 4 0 0

/-- `read_async_variable_integer`, variable_integer.rs 108-123 (u32: 206-221) and
`async_read_fixed_header_rem_len`, 29-45. -/
def asyncRead : Rd (Nat × Nat) := readLoop .eof 4 0 0

/-- `read_fixed_header_rem_len`, variable_integer.rs 10-27: works on an iterator, so nothing is consumed. -/
def remLenLoop : (k i integer : Nat) → Bytes → Except ReadBytes (Nat × Nat)
  | 0, _, _, _ => .error (.err (.de .malformedPacket))
  | k + 1, i, integer, b =>
    match b with
    | [] => .error (.insufficientBytes 1)
    | byte :: b =>
      let integer := integer + ((byte.toNat &&& 0x7f) <<< (7 * i))
      if byte &&& 0b10000000 = 0 then .ok (integer, i + 1)
      else remLenLoop k (i + 1) integer b

/-- `read_fixed_header_rem_len`, variable_integer.rs 10-27 -/
def remLen (b : Bytes) : Except ReadBytes (Nat × Nat) := remLenLoop 4 0 0 b

end Mqrstt.VarInt
