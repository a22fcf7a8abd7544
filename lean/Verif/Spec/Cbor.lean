import Verif.Base.Cbor

/-!
# Specification: a strict CBOR reader

Reads one data item from the front of a byte string, accepting only the CTAP2 canonical
encoding form (FIDO CTAP 2.0, section 6): integers and lengths in the shortest form, definite
lengths, map keys in strictly increasing order (which excludes duplicates).  The order is the
bytewise lexical order of the encoded keys; for the key types used here it is the order CTAP2
demands (major type, then length, then bytes), because the first byte carries the major type and
a longer length has a larger head.
-/

namespace VF.Spec.Cbor

open VF (Cbor)

/-- Big-endian number. -/
def beNat (b : Bytes) : Nat := b.foldl (fun acc x => acc * 256 + x.toNat) 0

/-- The argument of an initial byte with additional information `info`: the number and the rest.
Longer forms than necessary are rejected. -/
def argument (info : Nat) (rest : Bytes) : Option (Nat × Bytes) :=
  if info < 24 then some (info, rest)
  else if info = 24 then
    if rest.length < 1 ∨ beNat (rest.take 1) < 24 then none
    else some (beNat (rest.take 1), rest.drop 1)
  else if info = 25 then
    if rest.length < 2 ∨ beNat (rest.take 2) < 256 then none
    else some (beNat (rest.take 2), rest.drop 2)
  else if info = 26 then
    if rest.length < 4 ∨ beNat (rest.take 4) < 65536 then none
    else some (beNat (rest.take 4), rest.drop 4)
  else if info = 27 then
    if rest.length < 8 ∨ beNat (rest.take 8) < 4294967296 then none
    else some (beNat (rest.take 8), rest.drop 8)
  else none

/-- Bytewise lexical order, strict. -/
def lexLt : Bytes → Bytes → Bool
  | [], [] => false
  | [], _ :: _ => true
  | _ :: _, [] => false
  | a :: s, b :: t => a < b || (a == b && lexLt s t)

mutual
/-- Read one canonical data item; `fuel` bounds the nesting and the number of elements. -/
def readItem : Nat → Bytes → Option (Cbor × Bytes)
  | 0, _ => none
  | _ + 1, [] => none
  | fuel + 1, b :: rest =>
    let major := b.toNat / 32
    let info := b.toNat % 32
    if major = 7 then
      if info = 20 then some (.bool false, rest)
      else if info = 21 then some (.bool true, rest)
      else if info = 22 then some (.null, rest)
      else none
    else
      match argument info rest with
      | none => none
      | some (n, rest) =>
        if major = 0 then some (.uint n, rest)
        else if major = 1 then some (.nint n, rest)
        else if major = 2 then
          if rest.length < n then none else some (.bytes (rest.take n), rest.drop n)
        else if major = 3 then
          if rest.length < n then none else some (.text (rest.take n), rest.drop n)
        else if major = 4 then
          match readItems fuel n rest with
          | none => none
          | some (l, rest) => some (.array l, rest)
        else if major = 5 then
          match readEntries fuel n none rest with
          | none => none
          | some (l, rest) => some (.map l, rest)
        else none
/-- Read `n` items. -/
def readItems : Nat → Nat → Bytes → Option (List Cbor × Bytes)
  | _, 0, rest => some ([], rest)
  | 0, _ + 1, _ => none
  | fuel + 1, n + 1, rest =>
    match readItem fuel rest with
    | none => none
    | some (v, rest) =>
      match readItems fuel n rest with
      | none => none
      | some (l, rest) => some (v :: l, rest)
/-- Read `n` key/value pairs whose encoded keys are above `last` and increasing. -/
def readEntries : Nat → Nat → Option Bytes → Bytes → Option (List (Cbor × Cbor) × Bytes)
  | _, 0, _, rest => some ([], rest)
  | 0, _ + 1, _, _ => none
  | fuel + 1, n + 1, last, rest =>
    match readItem fuel rest with
    | none => none
    | some (k, rest1) =>
      let key := rest.take (rest.length - rest1.length)
      if (match last with | none => true | some l => lexLt l key) = false then none
      else
        match readItem fuel rest1 with
        | none => none
        | some (v, rest2) =>
          match readEntries fuel n (some key) rest2 with
          | none => none
          | some (l, rest3) => some ((k, v) :: l, rest3)
end

/-- The data item a byte string consists of, if it is exactly one canonical item. -/
def decode (b : Bytes) : Option Cbor :=
  match readItem (2 * b.length) b with
  | some (v, []) => some v
  | _ => none

/-- The value of a key in a map item. -/
def lookup : List (Cbor × Cbor) → (Cbor → Bool) → Option Cbor
  | [], _ => none
  | (k, v) :: l, p => if p k then some v else lookup l p

end VF.Spec.Cbor
