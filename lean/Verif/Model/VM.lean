import Verif.Model.Compile
import Verif.Spec.Lang
set_option autoImplicit false
/-!
# The interpreter: interpreter/VM.c

One step of `vm_executenext` on the bytecode.  The stack is the live part of `vm->stack` (`vm->sp` is its length less 1), top first.
Everything that an opcode does beyond the stack, the globals, the loop frames and the program counter – operators which dispatch to a
metatable, heap objects, conversion to text – is in the opaque `Prims` (their models are in the other files).

Simplifications.  `vm->globals` is a map (see C59 for the hash table).  No reference counts.  `O_ECHO` prints the text without NUL bytes
(C65).  Opcodes for functions, closures, `match` and `export` are not modelled (`RtErr.other`).
-/
namespace Yasl

/-- `struct VM`, interpreter/VM.h:72-105 (the fields used by the fragment); `loops` are `vm->loopframes[0..loopframe_num]`, innermost first:
`iter` and `iterable`. -/
structure VM (W : Type) where
  pc : Nat
  stack : List Val
  fp : Int
  loops : List (Nat × Val)
  globals : Name → Option Val
  world : W
  out : List Byte

/-- Result of a step: another state, or `vm_throw_err`. -/
inductive StepRes (W : Type) where
  | next (m : VM W)
  | stop (m : VM W) (e : RtErr)

/-- `STACK_SIZE`, interpreter/VM.h:8. -/
def stackSize : Nat := 1024

/-- The number of `loopframes`, interpreter/VM.h:85. -/
def numLoopFrames : Nat := 16

section
variable {W : Type}

/-- `vm_push`, VM.c:188-199. -/
def VM.push (m : VM W) (v : Val) : StepRes W :=
  if m.stack.length ≥ stackSize then .stop m .stackOverflow else .next { m with stack := v :: m.stack }

/-- `vm_push` of the result of an operation. -/
def VM.pushRes (m : VM W) (r : PRes W Val) : StepRes W :=
  match r with
  | (w, .ok v) => VM.push { m with world := w } v
  | (w, .error e) => .stop { m with world := w } e

/-- `vm->stack[i]`: `none` outside of the live part. -/
def VM.slot (m : VM W) (i : Int) : Option Val :=
  if i < 0 then none else if i.toNat < m.stack.length then m.stack[m.stack.length - 1 - i.toNat]? else none

/-- The position, from the top, of `vm->stack[i]`. -/
def VM.depth (m : VM W) (i : Int) : Nat := m.stack.length - 1 - i.toNat

/-- What reading `vm->stack[i]` outside of the live part is: before the array undefined behaviour, after it an old value (not modelled). -/
def VM.badSlot (m : VM W) (i : Int) : StepRes W := .stop m (if i < 0 then .ub else .other)

/-- `vm->pc += c`. -/
def VM.jumpBy (m : VM W) (c : BitVec 64) : StepRes W :=
  let p := (m.pc : Int) + c.toInt
  if p < 0 then .stop m .ub else .next { m with pc := p.toNat }

/-- Binary operators: both operands are replaced by the result, VM.c:1393-1477. -/
def VM.bin (F : FloatOps) (P : Prims W) (o : BinOp) (m : VM W) : StepRes W :=
  match m.stack with
  | b :: a :: st => VM.pushRes { m with stack := st } (applyBin F P m.world o a b)
  | _ => .stop m .ub

/-- Unary operators. -/
def VM.un (P : Prims W) (o : UnOp) (m : VM W) : StepRes W :=
  match m.stack with
  | a :: st => VM.pushRes { m with stack := st } (applyUn P m.world o a)
  | _ => .stop m .ub

/-- Conditional jumps `O_BRF_8`, `O_BRT_8`, `O_BRN_8`, VM.c:1563-1574; the 8 bytes were read. -/
def VM.branch (test : Val → Bool) (c : BitVec 64) (m : VM W) : StepRes W :=
  match m.stack with
  | a :: st => if test a then VM.jumpBy { m with stack := st } c else .next { m with stack := st }
  | _ => .stop m .ub

/-- `vm_read_int`, VM.c:289-294, then go on. -/
def VM.readInt (code : List Byte) (m : VM W) (k : BitVec 64 → VM W → StepRes W) : StepRes W :=
  match readInt8 (code.drop m.pc) with
  | some c => k c { m with pc := m.pc + 8 }
  | none => .stop m .ub

/-- `NCODE(vm)`, then go on. -/
def VM.readByte (code : List Byte) (m : VM W) (k : Byte → VM W → StepRes W) : StepRes W :=
  match code[m.pc]? with
  | some c => k c { m with pc := m.pc + 1 }
  | none => .stop m .ub

/-- The values above the topmost `Y_END`, deepest first, and the rest of the stack below it: the loops of `O_NEWLIST`, `O_NEWTABLE`,
VM.c:1487-1520. -/
def splitEnd : List Val → List Val → Option (List Val × List Val)
  | _, [] => none
  | acc, .end_ :: st => some (acc, st)
  | acc, v :: st => splitEnd (v :: acc) st

/-- The `switch` of `vm_executenext`, VM.c:1372-1667, after the opcode was read. `K` are `vm->constants`. -/
def VM.dispatch (F : FloatOps) (P : Prims W) (code : List Byte) (K : List Val) (op : Nat) (m : VM W) : StepRes W :=
  match op with
  | 0x0F => .stop m .halt
  | 0x08 => m.push (.bool false)
  | 0x09 => m.push (.bool true)
  | 0x01 => m.push .undef
  | 0x40 => m.bin F P .bor
  | 0x41 => m.bin F P .bxor
  | 0x42 => m.bin F P .band
  | 0x43 => m.bin F P .bandnot
  | 0x44 => m.un P .bnot
  | 0x45 => m.bin F P .shl
  | 0x46 => m.bin F P .shr
  | 0x60 => m.bin F P .add
  | 0x62 => m.bin F P .mul
  | 0x61 => m.bin F P .sub
  | 0x64 => m.bin F P .fdiv
  | 0x65 => m.bin F P .idiv
  | 0x66 => m.bin F P .mod
  | 0x63 => m.bin F P .pow
  | 0x67 => m.un P .neg
  | 0x68 => m.un P .pos
  | 0x69 => m.un P .not
  | 0x6A => m.un P .len
  | 0x6B => m.bin F P .cnct
  | 0x72 => m.bin F P .gt
  | 0x73 => m.bin F P .ge
  | 0x70 => m.bin F P .lt
  | 0x71 => m.bin F P .le
  | 0x74 => m.bin F P .eq
  | 0x76 => m.bin F P .id
  | 0x9A => VM.readByte code m fun i m => match K[i.toNat]? with
    | some v => m.push v
    | none => .stop m .ub
  | 0x9B => VM.readInt code m fun i m => match K[i.toNat]? with
    | some v => m.push v
    | none => .stop m .ub
  | 0x9C => match splitEnd [] m.stack with
    | some (vs, st) => VM.pushRes { m with stack := st } (P.newTable m.world (pairUp vs))
    | none => .stop m .ub
  | 0x9D => match splitEnd [] m.stack with
    | some (vs, st) => VM.pushRes { m with stack := st } (P.newList m.world vs)
    | none => .stop m .ub
  | 0xD0 => match m.stack with
    | c :: st => if m.loops.length ≥ numLoopFrames then .stop m .ub else .next { m with stack := st, loops := (0, c) :: m.loops }
    | [] => .stop m .ub
  | 0xD2 => match m.loops with
    | _ :: ls => .next { m with loops := ls }
    | [] => .stop m .ub
  | 0xD1 => match m.stack, m.loops with
    | a :: _ :: st, _ :: ls => .next { m with stack := a :: st, loops := ls }
    | _, _ => .stop m .ub
  | 0xD3 => match m.loops with
    | (i, c) :: ls => match P.next m.world c i with
      | (w, .ok none) => VM.push { m with world := w } (.bool false)
      | (w, .ok (some (v, j))) => match VM.push { m with world := w, loops := (j, c) :: ls } v with
        | .next m => m.push (.bool true)
        | r => r
      | (w, .error e) => .stop { m with world := w } e
    | [] => .stop m .ub
  | 0xB0 => m.push .end_
  | 0xB8 => match m.stack with
    | a :: _ => m.push a
    | [] => .stop m .ub
  | 0xA0 => VM.readByte code m fun off m =>
    let i := m.fp + off.toInt + 1
    match m.slot i with
    | some a => .next { m with stack := a :: m.stack.eraseIdx (m.depth i) }
    | none => m.badSlot i
  | 0xC0 => VM.readInt code m fun c m => m.jumpBy c
  | 0xC1 => VM.readInt code m fun c m => m.branch Val.falsey c
  | 0xC2 => VM.readInt code m fun c m => m.branch (fun v => !v.falsey) c
  | 0xC3 => VM.readInt code m fun c m => m.branch (fun v => v != .undef) c
  | 0xF1 => VM.readInt code m fun c m => match K[c.toNat]? with
    | some (.str x) => m.push ((m.globals x).getD .end_)
    | _ => .stop m .ub
  | 0xF0 => VM.readInt code m fun c m => match K[c.toNat]?, m.stack with
    | some (.str x), v :: st => .next { m with stack := st, globals := fun y => if y = x then some v else m.globals y }
    | _, _ => .stop m .ub
  | 0xF5 => VM.readByte code m fun off m =>
    let i := m.fp + off.toInt + 1
    match m.slot i with
    | some a => m.push a
    | none => m.badSlot i
  | 0xF4 => VM.readByte code m fun off m =>
    let i := m.fp + off.toInt + 1
    match m.slot i, m.stack with
    | some _, v :: _ => .next { m with stack := (m.stack.set (m.depth i) v).tail }
    | _, _ => m.badSlot i
  | 0x88 => match m.stack with
    | k :: c :: st => VM.pushRes { m with stack := st } (P.get m.world c k)
    | _ => .stop m .ub
  | 0x8A => match m.stack with
    | b :: a :: c :: st => VM.pushRes { m with stack := st } (P.slice m.world c a b)
    | _ => .stop m .ub
  | 0x80 => match m.stack with
    | v :: k :: c :: st => match P.set m.world c k v with
      | (w, .ok _) => .next { m with stack := st, world := w }
      | (w, .error e) => .stop { m with world := w } e
    | _ => .stop m .ub
  | 0xBF => match m.stack with
    | _ :: st => .next { m with stack := st }
    | [] => .stop m .ub
  | 0xFF => VM.readByte code m fun _ m => match m.stack with
    | v :: st => match P.tostr m.world v with
      | (w, .ok t) => .next { m with stack := st, world := w, out := m.out ++ echoBytes t }
      | (w, .error e) => .stop { m with world := w } e
    | [] => .stop m .ub
  | 0x50 => match m.stack with
    | v :: st =>
      if v.falsey then match P.tostr m.world v with
        | (w, .ok _) => .stop { m with stack := st, world := w } .assert
        | (w, .error e) => .stop { m with world := w } e
      else .next { m with stack := st }
    | [] => .stop m .ub
  | _ => .stop m .other

/-- One step: `vm_executenext`, VM.c:1364-1668. -/
def VM.step (F : FloatOps) (P : Prims W) (code : List Byte) (K : List Val) (m : VM W) : StepRes W :=
  VM.readByte code m fun op m => VM.dispatch F P code K op.toNat m

/-- `n` steps: the loop of `vm_run`, VM.c:1670-1680. -/
def VM.run (F : FloatOps) (P : Prims W) (code : List Byte) (K : List Val) : Nat → VM W → StepRes W
  | 0, m => .next m
  | n + 1, m => match m.step F P code K with
    | .next m' => VM.run F P code K n m'
    | .stop m' e => .stop m' e

end

/-- `vm_setupconstants`, VM.c:1325-1362: `n` constants from the bytes. `none`: the bytes end too early. -/
def readConstants : Nat → List Byte → Option (List Val)
  | 0, _ => some []
  | n + 1, bs => match bs with
    | [] => none
    | tag :: bs => match tag.toNat with
      | 3 => match readInt8 bs with
        | some len =>
          let rest := bs.drop 8
          if len.toNat ≤ rest.length then
            (readConstants n (rest.drop len.toNat)).map fun vs => .str (rest.take len.toNat) :: vs
          else none
        | none => none
      | 1 => match bs with
        | b :: bs => (readConstants n bs).map fun vs => .int (b.signExtend 64) :: vs
        | [] => none
      | 2 => match readInt8 bs with
        | some v => (readConstants n (bs.drop 8)).map fun vs => .int v :: vs
        | none => none
      | 0 => match readInt8 bs with
        | some v => (readConstants n (bs.drop 8)).map fun vs => .float v :: vs
        | none => none
      | _ => (readConstants n bs).map fun vs => .undef :: vs

/-- `YASL_execute`, yasl.c:148-166, and the start of `vm_run`: the entry point and the number of constants are read from the image, the
constants set up.  The state of a new VM (`vm_init`, VM.c:44-74) with some globals. -/
def VM.load {W : Type} (image : List Byte) (globals : Name → Option Val) (w : W) : Option (VM W × List Val) :=
  match readInt8 image, readInt8 (image.drop 16) with
  | some entry, some n => (readConstants n.toNat (image.drop 24)).map fun K =>
    ({ pc := entry.toNat, stack := [], fp := -1, loops := [], globals, world := w, out := [] }, K)
  | _, _ => none

end Yasl
