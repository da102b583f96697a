import Verif.Spec.Calls
set_option autoImplicit false
/-!
# The stack and the call frames: interpreter/VM.c

`vm->stack` is an array of 1024 slots; every write and every `memmove` is checked against its bounds (`outOfBounds` is undefined behaviour).  The old values above
`vm->sp` are kept, as in the program.  Reference counts are in `Verif.Model.Refcount`.  `StackOverflow` is the outcome `overflow` (the message and the unwinding
of the frames that precede the `longjmp` are not part of it).
-/
namespace Yasl

/-- `struct CallFrame`, VM.h:81-87. -/
structure CFrame where
  pc : Nat
  prevFp : Int
  currFp : Int
  lp : Int
  numReturns : Int
deriving DecidableEq

/-- The fields of `struct VM`, VM.h:94-122, used by calls.  `frames` are `frames[0..frame_num]`, innermost first; `loops` are `loopframes[0..loopframe_num]`,
innermost first. -/
structure Mach where
  slots : Int → Val
  sp : Int
  fp : Int
  nextFp : Int
  frames : List CFrame
  loops : List (Nat × Val)
  pc : Nat

/-- `vm_init`, VM.c:45-74 (`next_fp` is not set there). -/
def Mach.init (nextFp : Int) (pc : Nat) : Mach := ⟨fun _ => .end_, -1, -1, nextFp, [], [], pc⟩

/-- `STACK_SIZE`, yasl_conf.h:46. -/
def machSize : Int := 1024

/-- `vm->stack[i] = v`. -/
def Mach.write (m : Mach) (i : Int) (v : Val) : CallRes Mach :=
  if 0 ≤ i ∧ i < machSize then .ok { m with slots := fun j => if j = i then v else m.slots j } else .outOfBounds

/-- `memmove(vm->stack + dst, vm->stack + src, n * sizeof(struct YASL_Object))`. -/
def Mach.memmove (m : Mach) (dst src n : Int) : CallRes Mach :=
  if n = 0 then .ok m
  else if 0 ≤ n ∧ 0 ≤ dst ∧ 0 ≤ src ∧ dst + n ≤ machSize ∧ src + n ≤ machSize then
    .ok { m with slots := fun j => if dst ≤ j ∧ j < dst + n then m.slots (j - dst + src) else m.slots j }
  else .outOfBounds

/-- `vm_push`, VM.c:188-198. -/
def Mach.push (m : Mach) (v : Val) : CallRes Mach :=
  if m.sp + 1 ≥ machSize then .overflow else Mach.write { m with sp := m.sp + 1 } (m.sp + 1) v

/-- `vm_pop`, VM.c:225-228: the value and the machine. -/
def Mach.pop (m : Mach) : CallRes (Val × Mach) :=
  if m.sp < 0 then .outOfBounds else .ok (m.slots m.sp, { m with sp := m.sp - 1 })

/-- `vm_insert`, VM.c:255-265. -/
def Mach.insert (m : Mach) (index : Int) (v : Val) : CallRes Mach :=
  if m.sp + 1 ≥ machSize then .overflow
  else (m.memmove (index + 1) index (m.sp - index + 1)).bind fun m' => (m'.write index v).bind fun m'' => .ok { m'' with sp := m''.sp + 1 }

/-- `vm_rm`, VM.c:267-273. -/
def Mach.rm (m : Mach) (index : Int) : CallRes Mach :=
  (m.memmove index (index + 1) (m.sp - index)).bind fun m' => (m'.write m'.sp .end_).bind fun m'' => .ok { m'' with sp := m''.sp - 1 }

/-- `vm_rm_range`, VM.c:275-287. -/
def Mach.rmRange (m : Mach) (start end_ : Int) : CallRes Mach :=
  (m.memmove start end_ (m.sp - end_ + 1)).bind fun m' => .ok { m' with sp := m'.sp - (end_ - start) }

/-- `NUM_FRAMES`, VM.h:18. -/
def numFrames : Nat := 1000

/-- `vm_enterframe_offset`, VM.c:1134-1145. -/
def Mach.enterFrame (m : Mach) (offset : Int) (numReturns : Int) : CallRes Mach :=
  if m.frames.length ≥ numFrames then .overflow
  else .ok { m with frames := ⟨m.pc, m.fp, m.nextFp, (m.loops.length : Int) - 1, numReturns⟩ :: m.frames, nextFp := offset }

/-- `while (…) vm_pushundef(vm)` and `while (…) vm_pop(vm)`, `n` times. -/
def Mach.pushUndefs (m : Mach) : Nat → CallRes Mach
  | 0 => .ok m
  | n + 1 => (m.push .undef).bind fun m' => m'.pushUndefs n

def Mach.pops (m : Mach) : Nat → CallRes Mach
  | 0 => .ok m
  | n + 1 => m.pop.bind fun p => p.2.pops n

/-- The two loops of `vm_fill_args` (VM.c:1223-1233) and of `vm_exitframe_multi` (VM.c:1155-1165): make `vm->sp` equal to `target`.  Every round of a loop
changes `vm->sp` by one and not its bound, so the number of rounds is the difference. -/
def Mach.fillTo (m : Mach) (target : Int) : CallRes Mach :=
  if m.sp < target then m.pushUndefs (target - m.sp).toNat else if m.sp > target then m.pops (m.sp - target).toNat else .ok m

/-- `while (vm->loopframe_num > frame.lp) dec_ref(&vm->loopframes[vm->loopframe_num--].iterable)`, VM.c:1170-1172. -/
def dropLoops (loops : List (Nat × Val)) (lp : Int) : List (Nat × Val) := loops.drop ((loops.length : Int) - 1 - lp).toNat

/-- `vm_exitframe_multi`, VM.c:1149-1175. -/
def Mach.exitFrameMulti (m : Mach) (len : Int) : CallRes Mach :=
  (m.rmRange m.fp (m.fp + len + 1)).bind fun m =>
  match m.frames with
  | [] => .outOfBounds
  | frame :: rest =>
    (if frame.numReturns ≥ 0 then m.fillTo (frame.numReturns - 1 + m.fp) else .ok m).bind fun m =>
    .ok { m with pc := frame.pc, fp := frame.prevFp, nextFp := frame.currFp, loops := dropLoops m.loops frame.lp, frames := rest }

/-- `vm_INIT_CALL_offset`, VM.c:1191-1198, for a callee that is a function (a C function, a closure or code). -/
def Mach.initCallOffset (m : Mach) (offset : Int) (expected : Int) : CallRes Mach := m.enterFrame offset expected

/-- `vm_INIT_CALL`, VM.c:1200-1202. -/
def Mach.initCall (m : Mach) (expected : Int) : CallRes Mach := m.initCallOffset m.sp expected

/-- `vm->frames[vm->frame_num].pc = vm->pc`. -/
def Mach.savePc (m : Mach) : CallRes Mach :=
  match m.frames with
  | [] => .outOfBounds
  | frame :: rest => .ok { m with frames := { frame with pc := m.pc } :: rest }

/-- `vm_CALL_native`, VM.c:1235-1241: `params` is the first byte of the code of the function. -/
def Mach.callNative (m : Mach) (params entry : Nat) : CallRes Mach :=
  m.savePc.bind fun m => (m.fillTo (m.fp + params)).bind fun m => .ok { m with pc := entry }

/-- `vm_CALL_cfn`, VM.c:1251-1265, up to the call of the C function. -/
def Mach.callC (m : Mach) (numArgs : Int) : CallRes Mach :=
  m.savePc.bind fun m =>
  if numArgs < 0 then
    -- `~num_args` is `-num_args - 1`
    m.insert (m.fp + 1 + (-numArgs - 1)) (.int (BitVec.ofInt 64 (m.sp - m.fp - (-numArgs - 1))))
  else m.fillTo (m.fp + numArgs)

/-- `vm_CALL`, VM.c:1267-1276 (`vm_CALL_closure`, `vm_CALL_fn`: VM.c:1243-1249).  A C function is left running. -/
def Mach.call (callee : Val → Callee) (m : Mach) : CallRes Mach :=
  let m := { m with fp := m.nextFp }
  match callee (m.slots m.fp) with
  | .code params entry => m.callNative params entry
  | .c params => m.callC params
  | .cVariadic fixed => m.callC (-(fixed : Int) - 1)
  | .notCallable => .ok m

/-- `vm_RET`, VM.c:1286-1289. -/
def Mach.ret (m : Mach) (len : Nat) : CallRes Mach := m.exitFrameMulti len

/-- The end of `vm_CALL_cfn`, VM.c:1262-1264. -/
def Mach.retC (m : Mach) (numReturns : Nat) : CallRes Mach := m.exitFrameMulti (m.sp - numReturns - m.fp)

/-- `O_INITFOR`, VM.c:1520-1525; `loopframes` has 16 elements (VM.h:102). -/
def Mach.initFor (m : Mach) : CallRes Mach :=
  if m.loops.length ≥ 16 then .outOfBounds else m.pop.bind fun p => .ok { p.2 with loops := (0, p.1) :: p.2.loops }

/-- `O_ENDFOR`, VM.c:1526-1529. -/
def Mach.endFor (m : Mach) : CallRes Mach :=
  match m.loops with | [] => .outOfBounds | _ :: rest => .ok { m with loops := rest }

/-- One operation. -/
def Mach.op (callee : Val → Callee) (m : Mach) : CallOp → CallRes Mach
  | .push v => m.push v
  | .pop => m.pop.bind fun p => .ok p.2
  | .goto_ pc => .ok { m with pc := pc }
  | .start want => m.initCall want
  | .call => m.call callee
  | .ret len => m.ret len
  | .retC n => m.retC n
  | .loop => m.initFor
  | .endLoop => m.endFor

def Mach.run (callee : Val → Callee) (m : Mach) : List CallOp → CallRes Mach
  | [] => .ok m
  | o :: os => (m.op callee o).bind fun m' => m'.run callee os

/-- `YASL_functioncall(S, n)`, yasl.c:439-447.  `body` is the C function that is called, if it is one: what it does to the stack and the number of values it
returns (`f->value(S)` in `vm_CALL_cfn`, VM.c:1262).  A function written in YASL is not run by this function. -/
def Mach.functionCall (callee : Val → Callee) (body : Mach → CallRes (Mach × Nat)) (m : Mach) (n : Nat) : CallRes (Int × Mach) :=
  (m.initCallOffset (m.sp - n) (-1)).bind fun m1 =>
  let oldSp := m1.sp
  (m1.call callee).bind fun m2 =>
  (match callee (m2.slots m2.fp) with
    | .c _ | .cVariadic _ => (body m2).bind fun p => p.1.retC p.2
    | _ => .ok m2).bind fun m3 =>
  .ok (oldSp - m3.sp - 1, m3)

/-- `vm_peek(vm)`. -/
def Mach.peek (m : Mach) : CallRes Val := if m.sp < 0 then .outOfBounds else .ok (m.slots m.sp)

/-- `YASL_popint`, yasl.c:573-578 (`YASL_isint`: yasl.c:473-475, `vm_popint`: VM.c:239-241). -/
def Mach.popInt (m : Mach) : CallRes (BitVec 64 × Mach) :=
  m.peek.bind fun v => match v with
    | .int i => m.pop.bind fun p => .ok (i, p.2)
    | _ => .ok (0, m)

/-- `YASL_popbool`, yasl.c:529-534. -/
def Mach.popBool (m : Mach) : CallRes (Bool × Mach) :=
  m.peek.bind fun v => match v with
    | .bool b => m.pop.bind fun p => .ok (b, p.2)
    | _ => .ok (false, m)

/-- `YASL_popfloat`, yasl.c:551-556. -/
def Mach.popFloat (m : Mach) : CallRes (BitVec 64 × Mach) :=
  m.peek.bind fun v => match v with
    | .float f => m.pop.bind fun p => .ok (f, p.2)
    | _ => .ok (0, m)

/-- `YASL_popcstr`, yasl.c:592-596 (`YASL_peekcstr`: yasl.c:580-590): `none` is `NULL`. -/
def Mach.popCstr (m : Mach) : CallRes (Option (List Byte) × Mach) :=
  m.peek.bind fun v => m.pop.bind fun p => .ok ((match v with | .str s => some s | _ => none), p.2)

end Yasl
