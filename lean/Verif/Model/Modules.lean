import Verif.Model.Consts
import Verif.Model.VM
set_option autoImplicit false
/-!
# `require` and the tables of literals: std/yasl-std-require.c:37-109

A required module is compiled with the requiring program's table of literals (`strings`, `header`: the same objects, changed in place), and runs in a virtual
machine of its own with the constants read from its header; when it is done its constants replace those of the requiring machine.  What a module does, apart from
requiring other modules, does not touch these tables and is left out; so are modules that fail (an error in the requiring program, 69-72).
-/
namespace Yasl

mutual
/-- A module: the names declared by `YASLX_decllibs` (62), the literals of its text, the code that follows the header, and the modules it requires, in order. -/
inductive Mod where
  | mk (libs lits : List Val) (code : List Byte) (body : Mods)
/-- Modules required one after the other. -/
inductive Mods where
  | nil
  | cons (m : Mod) (ms : Mods)
end

/-- The indices that the code of a loaded module uses for its literals, and the literals. -/
abbrev ModLog := List (List (BitVec 64) × List Val)

mutual
/-- Compile and run a module (`YASL_execute`, yasl.c:153-166; `vm_setupconstants`, interpreter/VM.c:1325-1362), std/yasl-std-require.c:53-67.  Returns the table of
literals, the constants of the machine that ran it, and the log. -/
def Mod.load (f : Nat) (c : Consts) : Mod → Option (Consts × List Val × ModLog)
  | .mk libs lits code body => do
    let (_, c) ← c.internAll f libs
    let (is, c) ← c.internAll f lits
    let K ← readConstants c.strings.count (c.header ++ code)
    let (c, K, log) ← body.run f c K
    some (c, K, (is, lits) :: log)
/-- The modules required by a running one, whose constants are `K`: each time the constants are replaced (std/yasl-std-require.c:93-98). -/
def Mods.run (f : Nat) (c : Consts) (K : List Val) : Mods → Option (Consts × List Val × ModLog)
  | .nil => some (c, K, [])
  | .cons m ms => do
    let (c, K, log) ← m.load f c
    let (c, K, log') ← ms.run f c K
    some (c, K, log ++ log')
end

end Yasl
