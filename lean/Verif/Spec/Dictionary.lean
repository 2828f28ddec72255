import Verif.Spec.TickSet

/-! # Specification: a dictionary that refuses what cannot be done -/

namespace Verif.Spec

/-- what is stored under each key -/
abbrev Dict (κ ν : Type) := κ → Option ν

inductive DictOp (κ ν : Type)
  | add (k : κ) (v : ν)
  | update (k : κ) (v : ν)
  | remove (k : κ)

variable {κ ν : Type}

/-- a new key can be added; one that is there can be updated and removed -/
def DictOp.Possible (d : Dict κ ν) : DictOp κ ν → Prop
  | .add k _ => d k = none
  | .update k _ => (d k).isSome
  | .remove k => (d k).isSome

instance (d : Dict κ ν) (o : DictOp κ ν) : Decidable (o.Possible d) := by
  cases o <;> unfold DictOp.Possible <;> first | infer_instance | exact decidable_of_iff _ Option.isNone_iff_eq_none

/-- the dictionary after the operation -/
def DictOp.apply [DecidableEq κ] (d : Dict κ ν) : DictOp κ ν → Dict κ ν
  | .add k v => Function.update d k (some v)
  | .update k v => Function.update d k (some v)
  | .remove k => Function.update d k none

/-- the dictionary after some operations, of which the impossible ones change nothing -/
def dictAfter [DecidableEq κ] : Dict κ ν → List (DictOp κ ν) → Dict κ ν
  | d, [] => d
  | d, o :: r => dictAfter (if o.Possible d then o.apply d else d) r

/-- what is wrong with an impossible operation -/
def DictOp.reason (already missing : InvErr) : DictOp κ ν → InvErr
  | .add _ _ => already
  | .update _ _ => missing
  | .remove _ => missing

/-- The outcome `r` of an operation on a collection that shows `d`: it succeeds and shows the new dictionary, or is
refused with the reason. -/
def DictOutcome {σ : Type} [DecidableEq κ] (shows_ : σ → Dict κ ν) (already missing : InvErr) (d : Dict κ ν) (o : DictOp κ ν)
    (r : M σ) : Prop :=
  (o.Possible d ∧ ∃ c, r = .ok c ∧ shows_ c = o.apply d) ∨
  (¬ o.Possible d ∧ r = .error (.inv (o.reason already missing)))

end Verif.Spec
