import Verif.Model.Value
/-!
# `util/hash_function.c`
-/
namespace Yasl

/-- `PRIME_A`, `PRIME_B` in util/prime.h:9-10. -/
def PRIME_A : Nat := 37
/-- `PRIME_B` in util/prime.h:9-10. -/
def PRIME_B : Nat := 67

/-- The 64 payload bits `s.value.ival` of a non-string object (interpreter/YASL_Object.h:38-47, union). -/
def Val.payload : Val → BitVec 64
  | .float b => b
  | .int i => i
  | .bool b => if b then 1 else 0
  | .userptr p => p
  | .ref _ a => BitVec.ofNat 64 a
  | _ => 0

/-- `hash_function`, util/hash_function.c:6-24.  `size_t` arithmetic is modulo 2^64; `char` is signed (x86-64), so a
byte is sign-extended before the xor. -/
def hashFunction (v : Val) (a m : Nat) : Nat :=
  match v with
  | .str s => s.foldl (fun h c => (((h * a) % 2 ^ 64) ^^^ (c.signExtend 64).toNat) % m) 0
  | v =>
    let i := v.payload.toNat
    let ll := i % 2 ^ 16
    let lu := i / 2 ^ 16 % 2 ^ 16
    let ul := i / 2 ^ 32 % 2 ^ 16
    let uu := i / 2 ^ 48 % 2 ^ 16
    ((a * ll * ll * ll * ll % 2 ^ 64) ^^^ (a * a * lu * lu * lu % 2 ^ 64) ^^^ (a * a * a * ul * ul % 2 ^ 64) ^^^
      (a * a * a * a * uu % 2 ^ 64)) % m

/-- `get_hash`, util/hash_function.c:26-33. -/
def getHash (v : Val) (numBuckets attempt : Nat) : Nat :=
  let hashA := hashFunction v PRIME_A numBuckets
  if attempt = 0 then hashA % numBuckets
  else
    let hashB := hashFunction v PRIME_B numBuckets
    ((hashA + attempt * (hashB + (if hashB = 0 then 1 else 0))) % 2 ^ 64) % numBuckets

end Yasl
