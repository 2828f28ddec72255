import Verif.Model.Removal

/-! # A list of keys that can be added and removed -/

namespace Verif.Spec

inductive KeyOp
  | add (k : PoolKey)
  | remove (k : PoolKey)

/-- the list after an operation: a key is added at the end unless it is there, and removed if it is there -/
def KeyOp.apply (l : List PoolKey) : KeyOp → List PoolKey
  | .add k => if k ∈ l then l else l ++ [k]
  | .remove k => l.filter (· ≠ k)

/-- the operation removes nothing, or the key at the end -/
def KeyOp.Last (l : List PoolKey) : KeyOp → Prop
  | .add _ => True
  | .remove k => k ∈ l → l.getLast? = some k

/-- the list after some operations -/
def keysAfter : List PoolKey → List KeyOp → List PoolKey
  | l, [] => l
  | l, o :: r => keysAfter (o.apply l) r

/-- only the key at the end is ever removed -/
def OnlyLast : List PoolKey → List KeyOp → Prop
  | _, [] => True
  | l, o :: r => o.Last l ∧ OnlyLast (o.apply l) r

/-- the collection after some operations, of which those that fail change nothing -/
def keysRun : PoolKeys → List KeyOp → PoolKeys
  | pk, [] => pk
  | pk, .add k :: r => keysRun ((pk.add k).toOption.getD pk) r
  | pk, .remove k :: r => keysRun ((pk.remove k).toOption.getD pk) r

/-- the collection shows the list `l` to its readers: the number of keys, every page, and which keys there are -/
structure Shows (pk : PoolKeys) (l : List PoolKey) : Prop where
  count : pk.length = l.length
  page : ∀ size off, off + size < 2 ^ 16 → pk.getAll size off = .ok ((l.drop off).take size)
  contains : ∀ k, pk.contains k = true ↔ k ∈ l

end Verif.Spec
