import Verif.Base.Outcome

/-!
# Model of the byte functions of src/arc_utilities/zlib_helpers.cpp (lines 21-117)

The library is an arbitrary machine: a call of `deflate` or `inflate` is given the rest of the input and the space
left in the output buffer and answers how much input it took, which bytes it wrote, and a return value. All that
is assumed is that it takes no more than there is and writes no more than fits. Counters are exact.
-/
namespace Verif.ZlibStream
open Verif

/-- `std::vector<uint8_t>`. Used for zlib_helpers.cpp:62-117, 44-56. -/
abbrev Bytes := List UInt8

/-- the return values that matter. Used for zlib_helpers.cpp:47, 88, 107. -/
inductive Ret
  | ok
  | streamEnd
  | error
  deriving DecidableEq

/-- the two ways of calling. Used for zlib_helpers.cpp:47, 88, 107. -/
inductive Flush
  | noFlush
  | finish
  deriving DecidableEq

/-- what one call does. Used for zlib_helpers.cpp:47, 88, 107, 87-99. -/
structure Reply (σ : Type) where
  state : σ
  taken : Nat
  written : Bytes
  ret : Ret

/-- a compressor or decompressor of the library. Used for zlib_helpers.cpp:47, 88, 107, 87-99. -/
structure Codec (σ : Type) where
  init : σ
  initOk : Bool
  call : σ → Bytes → Nat → Flush → Reply σ
  taken_le : ∀ s input space flush, (call s input space flush).taken ≤ input.length
  written_le : ∀ s input space flush, (call s input space flush).written.length ≤ space

/-- The variables: the state of the library, the rest of the input (`next_in`, `avail_in`), the buffer, the space
left in it (`avail_out`; `next_out` is `size - space` bytes behind the beginning), and the bytes collected. Used for
zlib_helpers.cpp:47, 88, 107, 94-98, 102-106. -/
structure St (σ : Type) where
  codec : σ
  input : Bytes
  buffer : Bytes
  space : Nat
  result : Bytes

/-- the bytes written over the buffer from a position on. Used for zlib_helpers.cpp:47, 88, 107. -/
def overwrite (buffer : Bytes) (pos : Nat) (written : Bytes) : Bytes :=
  buffer.take pos ++ written ++ buffer.drop (pos + written.length)

variable {σ : Type}

/-- a call of the library: zlib_helpers.cpp:47, 88, 107; `size` is the size of the buffer -/
def invoke (c : Codec σ) (size : Nat) (flush : Flush) (s : St σ) : Ret × St σ :=
  let r := c.call s.codec s.input s.space flush
  (r.ret, { s with
    codec := r.state
    input := s.input.drop r.taken
    buffer := overwrite s.buffer (size - s.space) r.written
    space := s.space - r.written.length })

/-- zlib_helpers.cpp:94-98, 102-106: a full buffer is emptied -/
def emptyFull (size : Nat) (s : St σ) : St σ :=
  if s.space = 0 then { s with result := s.result ++ s.buffer.take size, space := size } else s

/-- zlib_helpers.cpp:87-99: the loop that feeds the input -/
def feed (c : Codec σ) (size : Nat) : Nat → St σ → Option (Out (St σ))
  | 0, _ => none
  | fuel + 1, s =>
    if s.input = [] then some (.ok s)
    else
      let (ret, s') := invoke c size .noFlush s
      if ret = .ok then feed c size fuel (emptyFull size s')
      else some (.throws .invalidArgument)

/-- zlib_helpers.cpp:100-113: the loop that finishes the stream -/
def finish (c : Codec σ) (size : Nat) : Nat → St σ → Option (Out (St σ))
  | 0, _ => none
  | fuel + 1, s =>
    let (ret, s') := invoke c size .finish (emptyFull size s)
    match ret with
    | .ok => finish c size fuel s'
    | .streamEnd => some (.ok s')
    | .error => some (.throws .invalidArgument)

/-- zlib_helpers.cpp:62-117 `CompressBytes`. `buffer` is whatever the buffer contains at first; `size` is 2^20 and
`max` 2^32 - 1 in the code. -/
def compress (c : Codec σ) (size max : Nat) (buffer data : Bytes) (fuel : Nat) : Option (Out Bytes) :=
  if max < data.length then some (.throws .invalidArgument)
  else if c.initOk then
    match feed c size fuel ⟨c.init, data, buffer, size, []⟩ with
    | none => none
    | some (.ok s) =>
      match finish c size fuel s with
      | none => none
      | some (.ok s') => some (.ok (s'.result ++ s'.buffer.take (size - s'.space)))
      | some (.throws e) => some (.throws e)
      | some .abort => some .abort
      | some .ub => some .ub
    | some (.throws e) => some (.throws e)
    | some .abort => some .abort
    | some .ub => some .ub
  else some (.throws .invalidArgument)

/-- zlib_helpers.cpp:44-56: the loop of `DecompressBytes`; `total` is `total_out` -/
def inflateLoop (c : Codec σ) (size : Nat) : Nat → Nat → St σ → Option (Out Bytes)
  | 0, _, _ => none
  | fuel + 1, total, s =>
    let (ret, s') := invoke c size .noFlush { s with space := size }
    let total' := total + (size - s'.space)
    let s'' := if s'.result.length < total' then
      { s' with result := s'.result ++ s'.buffer.take (size - s'.space) } else s'
    match ret with
    | .ok => inflateLoop c size fuel total' s''
    | .streamEnd => some (.ok s''.result)
    | .error => some (.throws .invalidArgument)

/-- zlib_helpers.cpp:21-59 `DecompressBytes` -/
def decompress (c : Codec σ) (size max : Nat) (buffer data : Bytes) (fuel : Nat) : Option (Out Bytes) :=
  if max < data.length then some (.throws .invalidArgument)
  else if c.initOk then inflateLoop c size fuel 0 ⟨c.init, data, buffer, 0, []⟩
  else some (.throws .invalidArgument)

end Verif.ZlibStream
