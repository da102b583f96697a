import Verif.Model.Table
/-!
# Specification of tables: finite maps

Independent of the implementation: a table denotes a partial function from keys to values.
-/
namespace Yasl

/-- Keys for which equality is identity of values: hashable, not `undef`, not NaN and not the float −0.0 (NaN is not
equal to itself; −0.0 equals 0.0 but has another hash — see C01's counterexamples). -/
def GoodKey : Val → Prop
  | .float b => fnan b = false ∧ b ≠ 0x8000000000000000#64
  | .int _ | .bool _ | .str _ | .userptr _ => True
  | _ => False

/-- A value one can store: anything but `undef` (and the internal sentinel). -/
def LiveVal (v : Val) : Prop := v ≠ .undef ∧ v ≠ .end_

/-- The effect of an operation on the denoted map; unhashable keys are refused. -/
def TOp.apply (m : Val → Option Val) : TOp → Val → Option Val
  | .set k v => fun x => if k.hashable ∧ x = k then some v else m x
  | .rm k => fun x => if k.hashable ∧ x = k then none else m x

/-- The map denoted by a history, starting from map `m`. -/
def specFrom (m : Val → Option Val) (ops : List TOp) : Val → Option Val := ops.foldl TOp.apply m

/-- The map denoted by a history on a new table. -/
def specOf (ops : List TOp) : Val → Option Val := specFrom (fun _ => none) ops

/-- The operation uses a well-behaved or an unhashable key, and stores a proper value. -/
def TOp.OK : TOp → Prop
  | .set k v => (GoodKey k ∨ k.hashable = false) ∧ LiveVal v
  | .rm k => GoodKey k ∨ k.hashable = false

/-- Every removal in the history removes a key which is present at that point (or is refused: unhashable key). -/
def removesPresent : (Val → Option Val) → List TOp → Prop
  | _, [] => True
  | m, .set k v :: ops => removesPresent ((TOp.set k v).apply m) ops
  | m, .rm k :: ops => (k.hashable = true → (m k).isSome = true) ∧ removesPresent ((TOp.rm k).apply m) ops

/-- `removesPresent` can be computed on concrete histories. -/
instance removesPresent.dec : (m : Val → Option Val) → (ops : List TOp) → Decidable (removesPresent m ops)
  | _, [] => isTrue trivial
  | m, .set k v :: ops => removesPresent.dec ((TOp.set k v).apply m) ops
  | m, .rm k :: ops => @instDecidableAnd _ _ inferInstance (removesPresent.dec ((TOp.rm k).apply m) ops)

/-- Number of removals in a history. -/
def removals (ops : List TOp) : Nat := ops.countP fun
  | .rm _ => true
  | _ => false

/-- The operation is an assignment. -/
def TOp.IsSet : TOp → Prop
  | .set _ _ => True
  | .rm _ => False

end Yasl
