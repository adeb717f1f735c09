import Verif.Model.BulkStream
import Verif.Spec.Proto
/-
Specification for a bulk insertion on its way from the client to the server.
-/
namespace IndraDB

/-- The items `items` of the client are received as `l`: the same number, in the same order, each in a message within the size
limit that stands for the item received. -/
inductive BulkArrives (letter : Char → Bool) (J : JsonText) : List BulkInsertItem → List BulkInsertItem → Prop
  | nil : BulkArrives letter J [] []
  | cons {i i' : BulkInsertItem} {r r' : List BulkInsertItem} : (i.toProto J).size ≤ 4194304 →
      PBulkInsertItem.Means letter J (i.toProto J) i' → BulkArrives letter J r r' → BulkArrives letter J (i :: r) (i' :: r')

/-- The items before some item can be received, but that one is too large or stands for nothing; `st` says why. -/
def BulkRejected (letter : Char → Bool) (J : JsonText) (items : List BulkInsertItem) (st : Status) : Prop :=
  ∃ pre i suf l, items = pre ++ i :: suf ∧ BulkArrives letter J pre l ∧
    ((4194304 < (i.toProto J).size ∧ st = .undecodable) ∨
     ((i.toProto J).size ≤ 4194304 ∧ (¬ ∃ i', PBulkInsertItem.Means letter J (i.toProto J) i') ∧ ∃ e, st = .invalidArgument e))

/-- The call has come to its end, one way or another. -/
def BulkCaller.Done : BulkCaller → Prop
  | .returned _ | .cancelled => True
  | _ => False

end IndraDB
