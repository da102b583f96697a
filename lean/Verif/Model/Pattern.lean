import Verif.Spec.Pattern
import Verif.Model.ByteBuffer
set_option autoImplicit false
/-!
# Patterns: the `visit_*Pattern` functions of compiler/compiler.c, `vm_MATCH_*` and `vm_ff_*` of interpreter/VM.c

The place of `vm->pc` is given by the bytes that remain to be read.  `none`: the machine would read behind the code, or a value that was never
set.  Recursion depth is given by fuel.
-/
namespace Yasl

/-- `compiler_add_literal_pattern`, compiler/compiler.c:791-799, for the constant number `i`. -/
def litPattern (i : Nat) : List Byte := if i < 128 then [0x9A#8, BitVec.ofNat 8 i] else 0x9B#8 :: bytes8 (BitVec.ofNat 64 i)

/-- The patterns that can be keys: `visit_UndefPattern`, `visit_BoolPattern`, `visit_IntPattern` and so on, compiler.c:781-814.  `ix` is the number of the constant. -/
def compileKey (ix : Val → Nat) : PKey → List Byte
  | .undef => [0x01#8]
  | .bool b => [0x08#8, if b then 1#8 else 0#8]
  | .lit v => litPattern (ix v)

def PType.byte : PType → Byte
  | .bool => 0x02#8 | .int => 0x03#8 | .float => 0x04#8 | .str => 0x05#8 | .list => 0x06#8 | .table => 0x07#8

mutual
/-- The code of a pattern, compiler.c:781-950 (names are resolved to slots: `visit_DeclPattern` emits the slot). -/
def compilePat (ix : Val → Nat) : Pat → List Byte
  | .undef => [0x01#8]
  | .bool b => [0x08#8, if b then 1#8 else 0#8]
  | .lit v => litPattern (ix v)
  | .any => [0x0F#8]
  | .type t => [t.byte]
  | .bind s => [0xF4#8, BitVec.ofNat 8 s]
  | .ls rest ps => (if rest then 0xAD#8 else 0x9D#8) :: (bytes8 (BitVec.ofNat 64 ps.length) ++ compilePats ix ps)
  | .table rest kvs => (if rest then 0xAC#8 else 0x9C#8) :: (bytes8 (BitVec.ofNat 64 (2 * kvs.length)) ++ compileKVs ix kvs)
  | .alt p q => 0xB0#8 :: (compilePat ix p ++ compilePat ix q)
/-- `visit_CollectionPattern`, compiler.c:816-824: the children. -/
def compilePats (ix : Val → Nat) : Pats → List Byte
  | .nil => []
  | .cons p ps => compilePat ix p ++ compilePats ix ps
def compileKVs (ix : Val → Nat) : KVs → List Byte
  | .nil => []
  | .cons k p kvs => compileKey ix k ++ compilePat ix p ++ compileKVs ix kvs
end

/-- `vm_ff_subpatterns_multiple`, VM.c:951-955. -/
def ffMany (ff : List Byte → Option (List Byte)) : Nat → List Byte → Option (List Byte)
  | 0, bs => some bs
  | n + 1, bs => (ff bs).bind (ffMany ff n)

/-- `vm_read_int`, VM.c:289-294. -/
def readI (bs : List Byte) : Option (BitVec 64 × List Byte) := (readInt8 bs).map fun i => (i, bs.drop 8)

/-- `vm_ff_subpattern`, VM.c:918-949.  (A byte that is no pattern is skipped.) -/
def ffPat : Nat → List Byte → Option (List Byte)
  | 0, _ => none
  | _ + 1, [] => none
  | f + 1, b :: bs => match b.toNat with
    | 0xF4 | 0x08 | 0x9A => match bs with
      | _ :: bs => some bs
      | [] => none
    | 0x9B => (readI bs).map Prod.snd
    | 0x9D | 0xAD | 0x9C | 0xAC => (readI bs).bind fun r => ffMany (ffPat f) r.1.toNat r.2
    | 0xB0 => ffMany (ffPat f) 2 bs
    | _ => some bs

/-- What a match leaves: whether it matched, the remaining code, the slots of variables (`vm->stack[fp + 2 + i]`). -/
abbrev MRes := Option (Bool × List Byte × (Nat → Val))

/-- `MATCH_list`, VM.c:985-993; `n` elements are left. -/
def matchList (m : List Byte → Val → (Nat → Val) → MRes) (ff : List Byte → Option (List Byte)) : Nat → List Val → List Byte → (Nat → Val) → MRes
  | 0, _, bs, slots => some (true, bs, slots)
  | _ + 1, [], _, _ => none
  | n + 1, v :: vs, bs, slots => (m bs v slots).bind fun r => match r with
    | (true, bs, slots) => matchList m ff n vs bs slots
    | (false, bs, slots) => (ffMany ff n bs).map fun bs => (false, bs, slots)

/-- The key, VM.c:960-975: what is found (`none` inside is `Y_END`). -/
def matchKey (K : List Val) (search : Val → Option Val) : List Byte → Option (Option Val × List Byte)
  | [] => none
  | b :: bs => match b.toNat with
    | 0x01 => some (search .undef, bs)
    | 0x08 => match bs with
      | c :: bs => some (search (.bool (c != 0#8)), bs)
      | [] => none
    | 0x9A => match bs with
      | c :: bs => (K[c.toNat]?).map fun v => (search v, bs)
      | [] => none
    | 0x9B => (readI bs).bind fun r => (K[r.1.toNat]?).map fun v => (search v, r.2)
    | _ => none

/-- `vm_MATCH_table_elements`, VM.c:957-983; `n` entries are left. -/
def matchTable (K : List Val) (m : List Byte → Val → (Nat → Val) → MRes) (ff : List Byte → Option (List Byte)) (search : Val → Option Val) :
    Nat → List Byte → (Nat → Val) → MRes
  | 0, bs, slots => some (true, bs, slots)
  | n + 1, bs, slots => (matchKey K search bs).bind fun r => match r with
    | (none, bs) => (ffMany ff (2 * n) bs).map fun bs => (false, bs, slots)
    | (some v, bs) => (m bs v slots).bind fun r => match r with
      | (true, bs, slots) => matchTable K m ff search n bs slots
      | (false, bs, slots) => (ffMany ff (2 * n) bs).map fun bs => (false, bs, slots)

/-- `vm_MATCH_subpattern`, VM.c:995-1105. -/
def matchPat (H : Heap) (K : List Val) : Nat → List Byte → Val → (Nat → Val) → MRes
  | 0, _, _, _ => none
  | _ + 1, [], _, _ => none
  | f + 1, b :: bs, v, slots => match b.toNat with
    | 0x01 => some (v == .undef, bs, slots)
    | 0x02 => some (PType.of .bool v, bs, slots)
    | 0x03 => some (PType.of .int v, bs, slots)
    | 0x04 => some (PType.of .float v, bs, slots)
    | 0x05 => some (PType.of .str v, bs, slots)
    | 0x06 => some (PType.of .list v, bs, slots)
    | 0x07 => some (PType.of .table v, bs, slots)
    | 0x08 => match bs with
      | c :: bs => some (v == .bool (c != 0#8), bs, slots)
      | [] => none
    | 0x9A => match bs with
      | c :: bs => (K[c.toNat]?).map fun k => (isEqual k v, bs, slots)
      | [] => none
    | 0x9B => (readI bs).bind fun r => (K[r.1.toNat]?).map fun k => (isEqual k v, r.2, slots)
    | 0x9C => (readI bs).bind fun r =>
      let len := r.1.toNat / 2
      match v with
      | .ref .table a =>
        if H.count a ≠ len then (ffMany (ffPat f) (len * 2) r.2).map fun bs => (false, bs, slots)
        else matchTable K (matchPat H K f) (ffPat f) (H.entry a) len r.2 slots
      | _ => (ffMany (ffPat f) (len * 2) r.2).map fun bs => (false, bs, slots)
    | 0xAC => (readI bs).bind fun r =>
      let len := r.1.toNat / 2
      match v with
      | .ref .table a => matchTable K (matchPat H K f) (ffPat f) (H.entry a) len r.2 slots
      | _ => (ffMany (ffPat f) (len * 2) r.2).map fun bs => (false, bs, slots)
    | 0x9D => (readI bs).bind fun r =>
      let len := r.1.toNat
      match v with
      | .ref .list a =>
        if (H.list a).length ≠ len then (ffMany (ffPat f) len r.2).map fun bs => (false, bs, slots)
        else matchList (matchPat H K f) (ffPat f) len (H.list a) r.2 slots
      | _ => (ffMany (ffPat f) len r.2).map fun bs => (false, bs, slots)
    | 0xAD => (readI bs).bind fun r =>
      let len := r.1.toNat
      match v with
      | .ref .list a =>
        if (H.list a).length < len then (ffMany (ffPat f) len r.2).map fun bs => (false, bs, slots)
        else matchList (matchPat H K f) (ffPat f) len (H.list a) r.2 slots
      | _ => (ffMany (ffPat f) len r.2).map fun bs => (false, bs, slots)
    | 0xF4 => match bs with
      | o :: bs => some (true, bs, fun s => if s = o.toNat then v else slots s)
      | [] => none
    | 0x0F => some (true, bs, slots)
    | 0xB0 => (matchPat H K f bs v slots).bind fun r => match r with
      | (true, bs, slots) => (ffPat f bs).map fun bs => (true, bs, slots)
      | (false, bs, slots) => matchPat H K f bs v slots
    | _ => some (false, bs, slots)

/-! ## The names of a pattern -/

/-- `compiler->seen_bindings`, `compiler->leftmost_pattern` and the names of the current scope (names are identified with their slots). -/
structure BindState where
  seen : List Nat
  leftmost : Bool
  declared : List Nat

mutual
/-- The errors of `visit_DeclPattern`, compiler/compiler.c:842-868, `visit_AltPattern`, 885-920, and `visit_CollectionPattern`, 816-824 (`let` and `const` are not told
apart; 255 variables are not counted).  `none`: the program is rejected. -/
def checkPat : Pat → BindState → Option BindState
  | .bind s, st =>
    if st.leftmost then
      if st.declared.contains s then none else some { st with seen := s :: st.seen, declared := s :: st.declared }
    else if st.declared.contains s then some { st with seen := s :: st.seen } else none
  | .ls _ ps, st => checkPats ps st.leftmost st
  | .table _ kvs, st => checkKVs kvs st.leftmost st
  | .alt p q, st =>
    (checkPat p { st with seen := [] }).bind fun l =>
    (checkPat q { l with seen := [], leftmost := false }).bind fun r =>
    if l.seen.all (fun s => r.seen.contains s) then some { r with seen := l.seen ++ st.seen } else none
  | .undef, st => some st
  | .bool _, st => some st
  | .lit _, st => some st
  | .any, st => some st
  | .type _, st => some st
def checkPats : Pats → Bool → BindState → Option BindState
  | .nil, _, st => some st
  | .cons p ps, old, st => (checkPat p st).bind fun st => checkPats ps old { st with leftmost := old }
def checkKVs : KVs → Bool → BindState → Option BindState
  | .nil, _, st => some st
  | .cons _ p kvs, old, st => (checkPat p { st with leftmost := old }).bind fun st => checkKVs kvs old { st with leftmost := old }
end

/-- The pattern of a clause, compiler.c:957-960 (in a new scope). -/
def acceptsPat (p : Pat) : Prop := (checkPat p { seen := [], leftmost := true, declared := [] }).isSome = true

end Yasl
