import Verif.Model.Ast
set_option autoImplicit false
/-!
# `compiler/middleend.c` — constant folding

`none` is undefined behaviour in the compiler itself (signed overflow, bad shift, `INT64_MIN // -1`).  The compiler's double
arithmetic is the same opaque `FloatOps` as the interpreter's.
-/
namespace Yasl

/-- `make_int`, `make_float`, `make_bool` on the result of a C operator, middleend.c:66-82. -/
def foldInt : OpRes → Option Expr
  | .val (.int i) => some (.int i)
  | _ => none

/-- The `N_INT`, `N_INT` case of `fold_BinOp`, middleend.c:101-169.  `x` and `y` are `left->value.ival` and
`right->value.ival`. -/
def foldIntInt (F : FloatOps) (t : BinTok) (x y : BitVec 64) : Option Expr :=
  let node := Expr.bin t (.int x) (.int y)
  match t with
  | .op .bor => some (.int (x ||| y))
  | .op .bxor => some (.int (x ^^^ y))
  | .op .band => some (.int (x &&& y))
  | .op .bandnot => some (.int (x &&& ~~~ y))
  | .op .eq | .op .id => some (.bool (x == y))
  | .ne | .nid => some (.bool (x != y))
  | .op .gt => some (.bool (decide (x.toInt > y.toInt)))
  | .op .ge => some (.bool (decide (x.toInt ≥ y.toInt)))
  | .op .lt => some (.bool (decide (x.toInt < y.toInt)))
  | .op .le => some (.bool (decide (x.toInt ≤ y.toInt)))
  | .op .shr => foldInt (intShr x y)
  | .op .shl => foldInt (intShl x y)
  | .op .add => foldInt (ofIntChecked (x.toInt + y.toInt))
  | .op .sub => foldInt (ofIntChecked (x.toInt - y.toInt))
  | .op .mul => foldInt (ofIntChecked (x.toInt * y.toInt))
  | .op .fdiv => some (.float (F.div (intToFloat x) (intToFloat y)))
  | .op .idiv => if y ≠ 0 then foldInt (ofIntChecked (x.toInt.tdiv y.toInt)) else some node
  | .op .mod =>
    if y ≠ 0 then
      if x.toInt = -2 ^ 63 ∧ y.toInt = -1 then none else foldInt (ofIntChecked (x.toInt.tmod y.toInt))
    else some node
  | .op .cnct | .op .pow | .and | .or | .coalesce => some node

/-- The other three cases of `fold_BinOp`, middleend.c:170-289: both operands as doubles `a`, `b` (an int is converted).
`node` is the unchanged node. -/
def foldFloat (F : FloatOps) (node : Expr) (t : BinTok) (a b : BitVec 64) : Expr :=
  match t with
  | .op .eq | .op .id => .bool (feq a b)
  | .ne | .nid => .bool (!feq a b)
  | .op .gt => .bool (flt b a)
  | .op .ge => .bool (fle b a)
  | .op .lt => .bool (flt a b)
  | .op .le => .bool (fle a b)
  | .op .add => .float (F.add a b)
  | .op .sub => .float (F.sub a b)
  | .op .mul => .float (F.mul a b)
  | .op .fdiv => .float (F.div a b)
  | _ => node

/-- `fold_BinOp` on folded children, middleend.c:96-290. -/
def foldBin (F : FloatOps) (t : BinTok) (l r : Expr) : Option Expr :=
  match l, r with
  | .int x, .int y => foldIntInt F t x y
  | .float a, .float b => some (foldFloat F (.bin t l r) t a b)
  | .float a, .int y => some (foldFloat F (.bin t l r) t a (intToFloat y))
  | .int x, .float b => some (foldFloat F (.bin t l r) t (intToFloat x) b)
  | l, r => some (.bin t l r)

/-- `fold_UnOp` on the folded child, middleend.c:292-347. -/
def foldUn (op : UnOp) (e : Expr) : Option Expr :=
  match e, op with
  | .int x, .pos => some (.int x)
  | .int x, .neg => foldInt (ofIntChecked (- x.toInt))
  | .int _, .not => some (.bool false)
  | .int x, .bnot => some (.int (~~~ x))
  | .bool b, .not => some (.bool (!b))
  | .float x, .pos => some (.float x)
  | .float x, .neg => some (.float (floatNeg x))
  | .float _, .not => some (.bool false)
  | e, op => some (.un op e)

mutual
/-- `fold`, middleend.c:367-422, on the modelled nodes. -/
def fold (F : FloatOps) : Expr → Option Expr
  | .un op e => (fold F e).bind (foldUn op)
  | .bin t l r => (fold F l).bind fun l => (fold F r).bind fun r => foldBin F t l r
  | .tri c a b => (fold F c).bind fun c => (fold F a).bind fun a => (fold F b).bind fun b => some (.tri c a b)
  | .list es => (foldBody F es).bind fun es => some (.list es)
  | .table es => (foldBody F es).bind fun es => some (.table es)
  | .get c k => (fold F c).bind fun c => (fold F k).bind fun k => some (.get c k)
  | .slice c a b => (fold F c).bind fun c => (fold F a).bind fun a => (fold F b).bind fun b => some (.slice c a b)
  | e => some e
/-- `fold_Body`, middleend.c:11-15. -/
def foldBody (F : FloatOps) : Exprs → Option Exprs
  | .nil => some .nil
  | .cons e es => (fold F e).bind fun e => (foldBody F es).bind fun es => some (.cons e es)
end

end Yasl
