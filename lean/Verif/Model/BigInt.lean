import Verif.Base.Bytes

/-!
# Model of the `math/big` conversions used by the code
-/

namespace VF.BigInt

/-- `(*big.Int).Bytes()`: big-endian, without leading zero bytes; empty for 0. -/
def toBytes (n : Nat) : Bytes :=
  if n = 0 then [] else toBytes (n / 256) ++ [UInt8.ofNat n]
termination_by n
decreasing_by omega

/-- `(*big.Int).SetBytes` (util.go:159-161 `BytesToBigInt`) -/
def ofBytes (b : Bytes) : Nat := b.foldl (fun acc x => acc * 256 + x.toNat) 0

/-- `(*big.Int).FillBytes` into `len` bytes (used by `elliptic.Marshal` and
`x509.MarshalECPrivateKey`); only called on numbers that fit. -/
def fill (len n : Nat) : Bytes :=
  List.replicate (len - (toBytes n).length) 0 ++ toBytes n

end VF.BigInt
