import Verif.Model.FCompile
import Verif.Model.VM
import Verif.Model.Calls
set_option autoImplicit false
/-!
# The interpreter with functions: interpreter/VM.c

As `Verif.Model.VM`, with the opcodes for functions, closures and calls.  The state of `Verif.Model.VM` is the field `vm`.

Simplifications: those of `Verif.Model.VM`.  A function without captured variables is the value `.ref .fn a`, `a` the position of its code; a closure
is `.ref .closure i`, `i` its index among the closures in the order of their creation; a captured variable is the position of its stack slot (it is never
closed: the opcode `O_CRET` is not modelled, see `Verif.Model.Upvalue`).  C functions are the opaque `Q`, from the values above the frame pointer to the
results.  The metamethod `__call` is not modelled: tables and userdata give `RtErr.other`, the metatables of the built-in types have none.  Old values above the top of the stack are not kept.
-/
namespace Yasl

/-- `struct VM`, interpreter/VM.h:94-122: `nextFp` is `next_fp`; `frames` are `frames[0..frame_num]`, innermost first; `closures` are the closures made so far:
`f` and the slots of `upvalues`, interpreter/closure.h. -/
structure FVM (W : Type) where
  vm : VM W
  nextFp : Int
  frames : List CFrame
  closures : List (Nat × List Nat)

/-- Result of a step: another state, or `vm_throw_err`. -/
inductive FStepRes (W : Type) where
  | next (m : FVM W)
  | stop (m : FVM W) (e : RtErr)

section
variable {W : Type}

/-- A step of the part of the machine that is in `Verif.Model.VM`. -/
def FVM.lift (m : FVM W) : StepRes W → FStepRes W
  | .next vm => .next { m with vm := vm }
  | .stop vm e => .stop { m with vm := vm } e

/-- `vm_read_int`, VM.c:289-294, then go on. -/
def FVM.readInt (code : List Byte) (m : FVM W) (k : BitVec 64 → FVM W → FStepRes W) : FStepRes W :=
  match readInt8 (code.drop m.vm.pc) with
  | some c => k c { m with vm := { m.vm with pc := m.vm.pc + 8 } }
  | none => .stop m .ub

/-- `NCODE(vm)`, then go on. -/
def FVM.readByte (code : List Byte) (m : FVM W) (k : Byte → FVM W → FStepRes W) : FStepRes W :=
  match code[m.vm.pc]? with
  | some c => k c { m with vm := { m.vm with pc := m.vm.pc + 1 } }
  | none => .stop m .ub

/-- `O_FCONST`, VM.c:1385-1389. -/
def FVM.fconst (code : List Byte) (m : FVM W) : FStepRes W :=
  m.readInt code fun c m => match m.vm.push (.ref .fn m.vm.pc) with
    | .next vm => m.lift (vm.jumpBy c)
    | r => m.lift r

/-- The slots of the captured variables of the function that runs. -/
def FVM.upvalues (m : FVM W) : Option (List Nat) :=
  match m.vm.slot m.vm.fp with
  | some (.ref .closure i) => (m.closures[i]?).map Prod.snd
  | _ => none

/-- The captured variables of a new closure: `signed char u`, VM.c:610-618. -/
def FVM.capture (m : FVM W) : List Byte → Option (List Nat)
  | [] => some []
  | b :: bs =>
    let slot := if 0 ≤ b.toInt then (if 0 ≤ m.vm.fp + 1 then some ((m.vm.fp + 1).toNat + b.toNat) else none)
      else (m.upvalues.getD [])[(~~~b).toNat]?
    match slot, m.capture bs with
    | some s, some ss => some (s :: ss)
    | _, _ => none

/-- `vm_CCONST`, VM.c:599-621. -/
def FVM.cconst (code : List Byte) (m : FVM W) : FStepRes W :=
  m.readInt code fun len m =>
    let start := m.vm.pc
    match m.vm.jumpBy len with
    | .next vm => FVM.readByte code { m with vm := vm } fun n m =>
      match m.capture ((code.drop m.vm.pc).take n.toNat) with
      | some slots =>
        if m.vm.pc + n.toNat ≤ code.length then
          let m1 := { m with vm := { m.vm with pc := m.vm.pc + n.toNat }, closures := m.closures ++ [(start, slots)] }
          m1.lift (m1.vm.push (.ref .closure m.closures.length))
        else .stop m .ub
      | none => .stop m .ub
    | r => m.lift r

/-- `O_ULOAD`, VM.c:1592-1595. -/
def FVM.uload (code : List Byte) (m : FVM W) : FStepRes W :=
  m.readByte code fun off m => match (m.upvalues.getD [])[off.toNat]? with
    | some i => match m.vm.slot i with
      | some v => m.lift (m.vm.push v)
      | none => .stop m .ub
    | none => .stop m .ub

/-- `O_USTORE`, VM.c:1596-1600. -/
def FVM.ustore (code : List Byte) (m : FVM W) : FStepRes W :=
  m.readByte code fun off m => match (m.upvalues.getD [])[off.toNat]?, m.vm.stack with
    | some i, v :: st => match VM.slot { m.vm with stack := st } i with
      | some _ => .next { m with vm := { m.vm with stack := st.set (VM.depth { m.vm with stack := st } i) v } }
      | none => .stop m .ub
    | _, _ => .stop m .ub

/-- `vm_isfn`, `vm_iscfn`, `vm_isclosure`, VM.c:1192. -/
def isCallable : Val → Bool
  | .ref .fn _ | .ref .closure _ | .ref .cfn _ => true
  | _ => false

/-- What calling a value that is not a function is: `vm_lookup_method_throwing`, VM.c:1192-1195; the values which can have a metatable of their own are not
modelled. -/
def notCallableErr : Val → RtErr
  | .ref .table _ | .ref .userdata _ | .userptr _ => .other
  | _ => .type

/-- `vm_INIT_CALL_offset` and `vm_enterframe_offset`, VM.c:1134-1145, 1191-1198; `depth` is the position of the callee from the top. -/
def FVM.initCallOffset (m : FVM W) (depth : Nat) (expected : Int) : FStepRes W :=
  match m.vm.stack[depth]? with
  | some v =>
    if isCallable v then
      if m.frames.length ≥ numFrames then .stop m .stackOverflow
      else .next { m with frames := ⟨m.vm.pc, m.vm.fp, m.nextFp, (m.vm.loops.length : Int) - 1, expected⟩ :: m.frames,
                          nextFp := (m.vm.stack.length : Int) - 1 - depth }
    else .stop m (notCallableErr v)
  | none => .stop m .ub

/-- `O_INIT_CALL`, VM.c:1604-1606: the byte is a `signed char`. -/
def FVM.initCall (code : List Byte) (m : FVM W) : FStepRes W := m.readByte code fun n m => m.initCallOffset 0 n.toInt

/-- `vm_INIT_MC`, VM.c:1214-1221. -/
def FVM.initMc (P : Prims W) (code : List Byte) (K : List Val) (m : FVM W) : FStepRes W :=
  m.readByte code fun n m => match m.vm.stack with
    | v :: st =>
      if m.vm.stack.length ≥ stackSize then .stop m .stackOverflow
      else m.readInt code fun addr m => match K[addr.toNat]? with
        | some k => match P.get m.vm.world v k with
          | (w, .ok f) => FVM.initCallOffset { m with vm := { m.vm with stack := v :: f :: st, world := w } } 1 n.toInt
          | (w, .error e) => .stop { m with vm := { m.vm with world := w } } e
        | none => .stop m .ub
    | [] => .stop m .ub

/-- Make the number of values on the stack equal to `target`: the loops of `vm_fill_args` and `vm_exitframe_multi`, VM.c:1155-1165, 1223-1233; `none` is
`StackOverflow`. -/
def fillStack (st : List Val) (target : Nat) : Option (List Val) :=
  if st.length < target then
    if target ≤ stackSize then some (List.replicate (target - st.length) .undef ++ st) else none
  else some (st.drop (st.length - target))

/-- `StackOverflow` in `vm_push`, VM.c:188-199: the stack is full. -/
def FVM.full (m : FVM W) : FStepRes W :=
  .stop { m with vm := { m.vm with stack := List.replicate (stackSize - m.vm.stack.length) .undef ++ m.vm.stack } } .stackOverflow

/-- `vm_exitframe_multi`, VM.c:1149-1175. -/
def FVM.exitFrame (m : FVM W) (len : Nat) : FStepRes W :=
  if 0 ≤ m.vm.fp ∧ m.vm.fp.toNat + len + 1 ≤ m.vm.stack.length then
    let n := m.vm.stack.length
    let fp := m.vm.fp.toNat
    let m1 := { m with vm := { m.vm with stack := m.vm.stack.take (n - (fp + len + 1)) ++ m.vm.stack.drop (n - fp) } }
    match m1.frames with
    | [] => .stop m1 .ub
    | fr :: rest =>
      let st := if 0 ≤ fr.numReturns then fillStack m1.vm.stack (fp + fr.numReturns.toNat) else some m1.vm.stack
      match st with
      | some st => .next { m1 with vm := { m1.vm with stack := st, pc := fr.pc, fp := fr.prevFp, loops := dropLoops m1.vm.loops fr.lp },
                                   nextFp := fr.currFp, frames := rest }
      | none => m1.full
  else .stop m .ub

/-- `vm_CALL_native`, VM.c:1235-1241. -/
def FVM.callNative (code : List Byte) (m : FVM W) (entry : Nat) : FStepRes W :=
  match m.frames, code[entry]? with
  | fr :: rest, some n => match fillStack m.vm.stack ((m.vm.fp + 1).toNat + n.toNat) with
    | some st => .next { m with vm := { m.vm with stack := st, pc := entry + 1 }, frames := { fr with pc := m.vm.pc } :: rest }
    | none => m.full
  | _, _ => .stop m .ub

/-- `vm_CALL_cfn`, VM.c:1251-1265: `Q` gets the arguments in order and gives the results in order. -/
def FVM.callC (Q : W → Val → List Val → PRes W (List Val)) (m : FVM W) (v : Val) : FStepRes W :=
  match m.frames with
  | fr :: rest =>
    let n := m.vm.stack.length - (m.vm.fp + 1).toNat
    let m1 := { m with frames := { fr with pc := m.vm.pc } :: rest }
    match Q m.vm.world v (m.vm.stack.take n).reverse with
    | (w, .ok rs) =>
      if m.vm.stack.length - n + rs.length ≤ stackSize then
        FVM.exitFrame { m1 with vm := { m.vm with stack := rs.reverse ++ m.vm.stack.drop n, world := w } } 0
      else FVM.full { m1 with vm := { m.vm with world := w } }
    | (w, .error e) => .stop { m1 with vm := { m.vm with world := w } } e
  | [] => .stop m .ub

/-- `vm_CALL`, VM.c:1267-1276. -/
def FVM.call (Q : W → Val → List Val → PRes W (List Val)) (code : List Byte) (m : FVM W) : FStepRes W :=
  let m := { m with vm := { m.vm with fp := m.nextFp } }
  match m.vm.slot m.vm.fp with
  | some (.ref .fn a) => m.callNative code a
  | some (.ref .closure i) => match m.closures[i]? with
    | some c => m.callNative code c.1
    | none => .stop m .ub
  | some (.ref .cfn a) => m.callC Q (.ref .cfn a)
  | some _ => .next m
  | none => .stop m .ub

/-- The `switch` of `vm_executenext`, VM.c:1372-1667, after the opcode was read. -/
def FVM.dispatch (F : FloatOps) (P : Prims W) (Q : W → Val → List Val → PRes W (List Val)) (code : List Byte) (K : List Val) (op : Byte)
    (m : FVM W) : FStepRes W :=
  if op = opFCONST then m.fconst code
  else if op = opCCONST then m.cconst code
  else if op = opULOAD then m.uload code
  else if op = opUSTORE then m.ustore code
  else if op = opINIT_MC then m.initMc P code K
  else if op = opINIT_CALL then m.initCall code
  else if op = opCALL then m.call Q code
  else if op = opRET then m.readByte code fun len m => m.exitFrame len.toNat
  else m.lift (VM.dispatch F P code K op.toNat m.vm)

/-- One step: `vm_executenext`, VM.c:1364-1668. -/
def FVM.step (F : FloatOps) (P : Prims W) (Q : W → Val → List Val → PRes W (List Val)) (code : List Byte) (K : List Val) (m : FVM W) : FStepRes W :=
  m.readByte code fun op m => m.dispatch F P Q code K op

/-- `n` steps: the loop of `vm_run`, VM.c:1670-1680. -/
def FVM.run (F : FloatOps) (P : Prims W) (Q : W → Val → List Val → PRes W (List Val)) (code : List Byte) (K : List Val) : Nat → FVM W → FStepRes W
  | 0, m => .next m
  | n + 1, m => match m.step F P Q code K with
    | .next m' => FVM.run F P Q code K n m'
    | .stop m' e => .stop m' e

/-- A new machine with the image loaded (`VM.load`); `nextFp` is whatever was in memory (`vm_init` does not set it, VM.c:44-74). -/
def FVM.load (image : List Byte) (globals : Name → Option Val) (w : W) (nextFp : Int) : Option (FVM W × List Val) :=
  (VM.load image globals w).map fun p => ({ vm := p.1, nextFp := nextFp, frames := [], closures := [] }, p.2)

end
end Yasl
