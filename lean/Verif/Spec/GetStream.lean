import Verif.Model.GetStream
import Verif.Spec.Proto
/-
Specification for the reply of a query on its way from the server to the client.
-/
namespace IndraDB

/-- The output values `os` of the server are received as `l`: the same number, in the same order, each in a message within the
size limit that stands for the value received. -/
inductive OutputsArrive (letter : Char → Bool) (J : JsonText) : List Output → List Output → Prop
  | nil : OutputsArrive letter J [] []
  | cons {o o' : Output} {r r' : List Output} : (o.toProto J).size ≤ 4194304 →
      POutput.Means letter J (o.toProto J) o' → OutputsArrive letter J r r' → OutputsArrive letter J (o :: r) (o' :: r')

/-- Some output value cannot be received: it is too large, or stands for nothing; `e` says which. -/
def OutputRejected (letter : Char → Bool) (J : JsonText) (os : List Output) (e : ClientError) : Prop :=
  ∃ o ∈ os, (4194304 < (o.toProto J).size ∧ e = .grpc .undecodable) ∨
    ((¬ ∃ o', POutput.Means letter J (o.toProto J) o') ∧ ∃ c, e = .conversion c)

/-- The call has come to its end, one way or another. -/
def GetCaller.Done : GetCaller → Prop
  | .returned _ | .cancelled => True
  | .reading _ => False

end IndraDB
