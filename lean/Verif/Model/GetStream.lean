import Verif.Model.ReplyChannel
/-
A query on its way through server and client (`proto/src/server.rs:231-245`, `proto/src/client.rs:149-157`): a blocking task
evaluates it and sends the output values one by one into a bounded channel (see `Model/ReplyChannel.lean`, which is about the
task only); the channel is the body of the response, from which the gRPC transport takes messages as long as its flow control
window has room; the client collects them until the body ends. `Model/Server.lean` treats all this as one step.

Assumed of the transport: messages arrive in order; the end of the body is seen by the client only if it was sent; a stream that
breaks is seen as an error.
-/
namespace IndraDB

/-- The blocking task (`proto/src/server.rs:235-242`): evaluating the query; sending; or it has ended, and `tx` was dropped. -/
inductive GetTask where
  | evaluating | sending | ended
deriving DecidableEq

/-- The caller of `Client::get` (`proto/src/client.rs:149-157`): in the loop, having collected `got`; the call has returned; or
the caller has dropped the future. -/
inductive GetCaller where
  | reading (got : List Output)
  | returned (r : Except ClientError (List Output))
  | cancelled

/-- The state: the task, the outcome of the library call once there is one, what is still to be sent, the channel, whether its
receiver (the body of the response) is still there, the messages on the wire, whether the end of the body was sent, whether the
connection is intact, and the caller. `proto/src/server.rs:231-245`, `proto/src/client.rs:149-157`. -/
structure GetStream where
  task : GetTask
  outcome : Option (Res (List Output))
  todo : List ReplyItem
  queue : List ReplyItem
  body : Bool
  wire : List ReplyItem
  sentEnd : Bool
  up : Bool
  caller : GetCaller

/-- What the task sends for an outcome of the library call: `getStream` (`proto/src/server.rs:235-242`). -/
def outcomeStream (J : JsonText) (r : Res (List Output)) : List ReplyItem := getStream J (r.map Reply.outputs)

/-- What the caller does with the next message (`proto/src/client.rs:153-155`). -/
def getNext (letter : Char → Bool) (J : JsonText) (got : List Output) : ReplyItem → GetCaller
  | .error st => .returned (.error (.grpc st))
  | .ok m =>
    if wireOk m.size 4 then
      match m.conv letter J with
      | .ok o => .reading (got ++ [o])
      | .error e => .returned (.error (.conversion e))
    else .returned (.error (.grpc .undecodable))

namespace GetStream

/-- The task has been spawned, and the response with the stream is on its way (`proto/src/server.rs:234-244`). -/
def start : GetStream := ⟨.evaluating, none, [], [], true, [], false, true, .reading []⟩

/-- One step of the task, the transport, the caller or the environment. `window`: how many messages the transport accepts before
the client reads them. `proto/src/server.rs:19-23, 231-246`, `proto/src/client.rs:149-157`. -/
inductive Step (letter : Char → Bool) (J : JsonText) (window : Nat) : GetStream → GetStream → Prop
  /-- `db.get(q)` (`proto/src/server.rs:235`), with whatever outcome -/
  | eval (G : GetStream) (r : Res (List Output)) : G.task = .evaluating →
      Step letter J window G { G with task := .sending, outcome := some r, todo := outcomeStream J r }
  /-- `blocking_send` (`proto/src/server.rs:20`) with room in the channel -/
  | send (G : GetStream) (x : ReplyItem) (r : List ReplyItem) : G.task = .sending → G.todo = x :: r → G.body = true →
      G.queue.length < channelCapacity → Step letter J window G { G with todo := r, queue := G.queue ++ [x] }
  /-- `blocking_send` fails because the receiver is gone (`proto/src/server.rs:20-22`): the loop goes on -/
  | sendFails (G : GetStream) (x : ReplyItem) (r : List ReplyItem) : G.task = .sending → G.todo = x :: r → G.body = false →
      Step letter J window G { G with todo := r }
  /-- the task ends -/
  | sentAll (G : GetStream) : G.task = .sending → G.todo = [] → Step letter J window G { G with task := .ended }
  /-- the transport takes a message from the body -/
  | take (G : GetStream) (x : ReplyItem) (r : List ReplyItem) : G.up = true → G.body = true → G.queue = x :: r →
      G.wire.length < window → Step letter J window G { G with queue := r, wire := G.wire ++ [x] }
  /-- the body has ended: the channel is empty, and the sender is gone -/
  | finish (G : GetStream) : G.up = true → G.body = true → G.sentEnd = false → G.queue = [] → G.task = .ended →
      Step letter J window G { G with sentEnd := true }
  /-- the transport drops the body: the connection is broken, or the caller does not read any more -/
  | dropBody (G : GetStream) : G.body = true → (G.up = false ∨ ∀ got, G.caller ≠ .reading got) →
      Step letter J window G { G with body := false, queue := [] }
  /-- `res.next()` gives a message (`proto/src/client.rs:153-155`) -/
  | read (G : GetStream) (got : List Output) (x : ReplyItem) (r : List ReplyItem) : G.caller = .reading got →
      G.wire = x :: r → Step letter J window G { G with wire := r, caller := getNext letter J got x }
  /-- `res.next()` gives `None` (`proto/src/client.rs:153-156`) -/
  | readEnd (G : GetStream) (got : List Output) : G.caller = .reading got → G.wire = [] → G.sentEnd = true →
      Step letter J window G { G with caller := .returned (.ok got) }
  /-- `res.next()` gives an error because the connection is broken (`proto/src/client.rs:154`), or the response itself is missing (152) -/
  | readBroken (G : GetStream) (got : List Output) (code : Nat) : G.caller = .reading got → G.up = false →
      Step letter J window G { G with caller := .returned (.error (.grpc (.other code))) }
  /-- the connection breaks, or the server is killed -/
  | break_ (G : GetStream) : G.up = true → Step letter J window G { G with up := false }
  /-- the caller drops the future -/
  | cancel (G : GetStream) (got : List Output) : G.caller = .reading got → Step letter J window G { G with caller := .cancelled }

/-- Executions with `n` steps. Not code: steps of `proto/src/server.rs:231-245`, `proto/src/client.rs:149-157`. -/
inductive Exec (letter : Char → Bool) (J : JsonText) (window : Nat) : Nat → GetStream → Prop
  | start : Exec letter J window 0 start
  | step {n : Nat} {G G' : GetStream} : Exec letter J window n G → Step letter J window G G' → Exec letter J window (n + 1) G'

end GetStream
end IndraDB
