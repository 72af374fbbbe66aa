import Verif.Model.ZlibStream

/-!
# Specification: sessions with the library

A session is a sequence of calls, each on the input the earlier calls left over.
-/
namespace Verif.ZlibStream

/-- one call as seen from outside: the way of calling, the space offered, the bytes written, the return value -/
structure Call where
  flush : Flush
  space : Nat
  written : Bytes
  ret : Ret

variable {σ : Type}

/-- The calls can be made one after the other, from the first state and input to the last state and the input left
over. -/
inductive Session (c : Codec σ) : σ → Bytes → List Call → σ → Bytes → Prop
  | nil (s : σ) (input : Bytes) : Session c s input [] s input
  | cons (s : σ) (input : Bytes) (flush : Flush) (space : Nat) (calls : List Call) (s' : σ) (rest : Bytes)
      (h : Session c (c.call s input space flush).state (input.drop (c.call s input space flush).taken) calls s' rest) :
      Session c s input
        (⟨flush, space, (c.call s input space flush).written, (c.call s input space flush).ret⟩ :: calls) s' rest

/-- all bytes written in a session, in order -/
def written (calls : List Call) : Bytes := calls.flatMap (·.written)

/-- `calls` compress the whole of `data`: first calls that do not finish, until the input is used up, then calls that
finish, all returning `ok` except the last, which returns `streamEnd`. Each call is offered some space. -/
def Compresses (c : Codec σ) (size : Nat) (data : Bytes) (calls : List Call) : Prop :=
  ∃ front back last s1 s2 rest, calls = front ++ back ++ [last] ∧ Session c c.init data front s1 [] ∧
    Session c s1 [] (back ++ [last]) s2 rest ∧
    (∀ k ∈ front, k.flush = .noFlush ∧ k.ret = .ok) ∧ (∀ k ∈ back, k.flush = .finish ∧ k.ret = .ok) ∧
    last.flush = .finish ∧ last.ret = .streamEnd ∧ ∀ k ∈ calls, 0 < k.space ∧ k.space ≤ size

/-- `calls` decompress: none finishes, each is offered the whole buffer, all return `ok` except the last, which
returns `streamEnd`. -/
def Decompresses (c : Codec σ) (size : Nat) (data : Bytes) (calls : List Call) : Prop :=
  ∃ front last s rest, calls = front ++ [last] ∧ Session c c.init data calls s rest ∧
    (∀ k ∈ front, k.ret = .ok) ∧ last.ret = .streamEnd ∧ ∀ k ∈ calls, k.flush = .noFlush ∧ k.space = size

/-- What the library promises about a compressor and a decompressor: given the bytes of a complete compression of
`data`, the decompressor returns no error, and when it returns `streamEnd` it has written exactly `data`. -/
def Inverse {σ τ : Type} (d : Codec σ) (i : Codec τ) (size : Nat) : Prop :=
  ∀ data calls, Compresses d size data calls → ∀ front last s rest,
    Session i i.init (written calls) (front ++ [last]) s rest → (∀ k ∈ front, k.ret = .ok) →
    (∀ k ∈ front ++ [last], k.flush = .noFlush ∧ k.space = size) →
    last.ret ≠ .error ∧ (last.ret = .streamEnd → written (front ++ [last]) = data)

end Verif.ZlibStream
