import Verif.Model.Value
/-!
# Operators on primitive values: interpreter/VM.c:345-546, 1382-1483

The arithmetic of doubles (`+ - * /` and the C library's `pow`) is an opaque parameter.  Signed overflow, shift counts
outside 0..63, shifts of negative numbers to the left, and conversions out of range are the explicit outcome `ub`.
-/
namespace Yasl

/-- Opaque floating-point arithmetic (C library / FPU). -/
structure FloatOps where
  add : BitVec 64 → BitVec 64 → BitVec 64
  sub : BitVec 64 → BitVec 64 → BitVec 64
  mul : BitVec 64 → BitVec 64 → BitVec 64
  div : BitVec 64 → BitVec 64 → BitVec 64
  pow : BitVec 64 → BitVec 64 → BitVec 64

/-- Result of executing an operator opcode. -/
inductive OpRes where
  /-- a value is pushed -/
  | val (v : Val)
  /-- `YASL_DIVIDE_BY_ZERO_ERROR` -/
  | divZero
  /-- undefined behaviour in C -/
  | ub
  /-- the operator is looked up as a method (`__add`, …) in the metatable of the left operand -/
  | dispatch
  /-- depends on the identity of string objects, which this model does not have -/
  | strIdentity
deriving DecidableEq, Repr

/-- Binary opcodes, opcode.h. -/
inductive BinOp where
  | bor | bxor | band | bandnot | shl | shr | add | sub | mul | fdiv | idiv | mod | pow
  | lt | le | gt | ge | eq | id | cnct
deriving DecidableEq, Repr

/-- Unary opcodes, opcode.h. -/
inductive UnOp where
  | neg | pos | bnot | not | len
deriving DecidableEq, Repr

/-- A C `int64_t` expression whose mathematical value is `x`: undefined unless it fits. -/
def ofIntChecked (x : Int) : OpRes :=
  if -2 ^ 63 ≤ x ∧ x < 2 ^ 63 then .val (.int (BitVec.ofInt 64 x)) else .ub

/-- `shift_left`, INT_BINOP(shift_left, <<), VM.c:351.  C11 6.5.7: undefined for a count outside 0..63, for a negative
left operand, and when the result is not representable. -/
def intShl (a b : BitVec 64) : OpRes :=
  if 0 ≤ b.toInt ∧ b.toInt < 64 ∧ 0 ≤ a.toInt then ofIntChecked (a.toInt * 2 ^ b.toNat) else .ub

/-- `shift_right`, INT_BINOP(shift_right, >>), VM.c:352: arithmetic shift (gcc/clang), undefined for a count outside
0..63. -/
def intShr (a b : BitVec 64) : OpRes :=
  if 0 ≤ b.toInt ∧ b.toInt < 64 then .val (.int (BitVec.ofInt 64 (a.toInt / 2 ^ b.toNat))) else .ub

/-- C conversion of a double to `int64_t`: truncation, undefined for NaN and out of range. -/
def floatToInt (b : BitVec 64) : Option (BitVec 64) :=
  if fnan b then none
  else
    let t := (fval b).tdiv (2 ^ 1074)
    if -2 ^ 63 ≤ t ∧ t < 2 ^ 63 then some (BitVec.ofInt 64 t) else none

/-- C unary minus on a double flips the sign bit. -/
def floatNeg (b : BitVec 64) : BitVec 64 := b ^^^ (1#64 <<< 63)

/-- `vm_int_binop`, VM.c:370-387: ints are computed, everything else is dispatched. -/
def intBinop (f : BitVec 64 → BitVec 64 → OpRes) : Val → Val → OpRes
  | .int a, .int b => f a b
  | _, _ => .dispatch

/-- `vm_num_binop`, VM.c:400-422. -/
def numBinop (f : BitVec 64 → BitVec 64 → OpRes) (g : BitVec 64 → BitVec 64 → BitVec 64) (a b : Val) : OpRes :=
  match a, b with
  | .int x, .int y => f x y
  | a, b => if a.isNum && b.isNum then .val (.float (g a.getNum b.getNum)) else .dispatch

/-- `DEFINE_COMP`, VM.c:524-541 with `COMP`, VM.h:62-68.  `ci` is the C operator on ints (and on the three-way result of
`YASL_String_cmp` against 0), `cf` the one on doubles. -/
def compOp (cmp : List Byte → List Byte → Int) (ci : Int → Int → Bool) (cf : BitVec 64 → BitVec 64 → Bool)
    (a b : Val) : OpRes :=
  match a, b with
  | .str x, .str y => .val (.bool (ci (cmp x y) 0))
  | .int x, .int y => .val (.bool (ci x.toInt y.toInt))
  | a, b => if a.isNum && b.isNum then .val (.bool (cf a.getNum b.getNum)) else .dispatch

/-- The cases `O_BOR` … `O_CNCT` of `vm_executenext`, VM.c:1393-1483, on the two topmost values (`b` on top). -/
def binOp (F : FloatOps) (op : BinOp) (a b : Val) : OpRes :=
  match op with
  | .bor => intBinop (fun x y => .val (.int (x ||| y))) a b
  | .bxor => intBinop (fun x y => .val (.int (x ^^^ y))) a b
  | .band => intBinop (fun x y => .val (.int (x &&& y))) a b
  | .bandnot => intBinop (fun x y => .val (.int (x &&& ~~~ y))) a b
  | .shl => intBinop intShl a b
  | .shr => intBinop intShr a b
  | .add => numBinop (fun x y => ofIntChecked (x.toInt + y.toInt)) F.add a b
  | .sub => numBinop (fun x y => ofIntChecked (x.toInt - y.toInt)) F.sub a b
  | .mul => numBinop (fun x y => ofIntChecked (x.toInt * y.toInt)) F.mul a b
  | .fdiv => if a.isNum && b.isNum then .val (.float (F.div a.getNum b.getNum)) else .dispatch
  | .idiv =>
    if b = .int 0 then .divZero
    else intBinop (fun x y => ofIntChecked (x.toInt.tdiv y.toInt)) a b
  | .mod =>
    if b = .int 0 then .divZero
    else intBinop (fun x y => if x.toInt = -2 ^ 63 ∧ y.toInt = -1 then .ub else ofIntChecked (x.toInt.tmod y.toInt)) a b
  | .pow =>
    match a, b with
    | .int x, .int y =>
      if y.toInt < 0 then .val (.float (F.pow (intToFloat x) (intToFloat y)))
      else match floatToInt (F.pow (intToFloat x) (intToFloat y)) with
        | some r => .val (.int r)
        | none => .ub
    | a, b => if a.isNum && b.isNum then .val (.float (F.pow a.getNum b.getNum)) else .dispatch
  | .lt => compOp strCmp (fun x y => decide (x < y)) flt a b
  | .le => compOp strCmp (fun x y => decide (x ≤ y)) fle a b
  | .gt => compOp strCmp (fun x y => decide (x > y)) (fun x y => flt y x) a b
  | .ge => compOp strCmp (fun x y => decide (x ≥ y)) (fun x y => fle y x) a b
  | .eq =>
    match a, b with
    | .ref .userdata _, .ref .userdata _ | .ref .table _, .ref .table _ | .ref .list _, .ref .list _ => .dispatch
    | a, b => .val (.bool (isEqual a b))
  | .id =>
    match a, b with
    | .str _, .str _ => .strIdentity
    | a, b => .val (.bool (a == b))
  | .cnct =>
    match a, b with
    | .str x, .str y => .val (.str (x ++ y))
    | _, _ => .dispatch

/-- The unary cases `O_BNOT`, `O_NEG`, `O_POS`, `O_NOT`, `O_LEN`, VM.c:1405-1407, 1446-1457, 462-487. -/
def unOp (op : UnOp) (a : Val) : OpRes :=
  match op, a with
  | .bnot, .int x => .val (.int (~~~ x))
  | .neg, .int x => ofIntChecked (- x.toInt)
  | .neg, .float x => .val (.float (floatNeg x))
  | .pos, .int x => .val (.int x)
  | .pos, .float x => .val (.float x)
  | .not, a => .val (.bool a.falsey)
  | .len, .str s => ofIntChecked s.length
  | _, _ => .dispatch

end Yasl
