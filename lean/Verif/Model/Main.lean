import Verif.Model.FExecute
set_option autoImplicit false
/-!
# Model of main.c
-/
namespace Yasl

/-- Which of its functions `main` calls. -/
inductive Mode where
  /-- `main_REPL` -/
  | repl
  /-- `main_help` -/
  | help
  /-- `main_version` -/
  | version
  /-- `main_command_REPL` with the text -/
  | command_repl (text : List Byte)
  /-- `main_command` with the text -/
  | command (text : List Byte)
  /-- `main_compile` with the name of the file -/
  | check (file : List Byte)
  /-- `main_file` with the name of the file and the elements of the list `args` -/
  | file (file : List Byte) (args : List (List Byte))
  /-- no arguments at all, not even the name of the program: memory after `argv` is read -/
  | ub
deriving DecidableEq

/-- `-h` and so on. -/
def dash (c : Byte) : List Byte := [45, c]

/-- `main`, main.c:174-195, and the loop of `main_file`, main.c:55-61: `argv[1]` to `argv[argc - 1]` are the elements of `args`.  (The strings have no NUL byte, so `strcmp` compares
them as they are.) -/
def mainMode (argv : List (List Byte)) : Mode :=
  match argv with
  | [] => .ub
  | [_] => .repl
  | [_, a] => if a = dash 104 then .help else if a = dash 86 then .version else .file a [a]
  | [_, a, b] => if a = dash 101 then .command_repl b else if a = dash 69 then .command b else if a = dash 67 then .check b else .file a [a, b]
  | _ :: a :: rest => .file a (a :: rest)

/-- `"args"`, main.c:55. -/
def argsName : Name := [97, 114, 103, 115]

/-- `YASL_compile` in `main_compile`, main.c:70-93: `YASLX_decllibs` has declared the names `libs`; `args` is declared after it. -/
def mainCheck (cfg : ParseCfg) (libs : List Name) (lines src : List Byte) : Option FBuilt := buildF cfg libs lines src

/-- The compilation in `main_file`, main.c:43-68: `args` is declared before `YASL_execute`. -/
def mainFile (cfg : ParseCfg) (libs : List Name) (lines src : List Byte) : Option FBuilt := buildF cfg (libs ++ [argsName]) lines src

/-- `main_REPL`, main.c:132-160: what is left of the standard input, the bytes of the line so far (`buffer`), and the texts that were executed.  `over`: the program has been left by
a call of `quit`, main.c:106-109. -/
structure Repl where
  input : List Byte
  buffer : List Byte
  given : List (List Byte)
  over : Bool
deriving DecidableEq

/-- One `getchar`, main.c:144-156: at the end of the input it returns `EOF`, −1, which is not the end of a line and is added to the buffer as the byte 255.  `quits`: does the
last of these texts call `quit`, after the others? -/
def Repl.step (quits : List (List Byte) → Bool) (s : Repl) : Repl :=
  if s.over then s
  else match s.input with
    | [] => { s with buffer := s.buffer ++ [255] }
    | b :: rest =>
      if b = 10 then { input := rest, buffer := [], given := s.given ++ [s.buffer ++ [10]], over := quits (s.given ++ [s.buffer ++ [10]]) }
      else { s with input := rest, buffer := s.buffer ++ [b] }

/-- The prompt after `n` calls of `getchar`. -/
def Repl.run (quits : List (List Byte) → Bool) : Nat → Repl → Repl
  | 0, s => s
  | n + 1, s => Repl.run quits n (s.step quits)

/-- The prompt at its start. -/
def Repl.start (input : List Byte) : Repl := ⟨input, [], [], false⟩

end Yasl
