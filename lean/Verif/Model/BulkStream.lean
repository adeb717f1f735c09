import Verif.Model.Server
/-
A bulk insertion on its way from the client to the server (`proto/src/client.rs:205-229`, `proto/src/server.rs:261-277`).
The client spawns a task that sends the items one by one into a bounded `tokio::sync::mpsc` channel; the channel is the body
of the request, from which the gRPC transport takes messages as long as its flow control window has room; the server collects
the items until the body ends and only then calls the library. An error of the sending task is left in a variable that the
caller looks at after the response has arrived. `Model/Server.lean` treats all this as one step.

Assumed of the transport: messages arrive in order; the end of the body is seen by the server only if it was sent; a stream
that breaks is seen as an error; the library call of a server handler that was dropped runs to its end (`spawn_blocking`).
-/
namespace IndraDB

/-- The task that sends the items (`proto/src/client.rs:211-218`): sending; a `send` has failed but `last_err` has not been
set; or it has ended, and `tx` was dropped. -/
inductive BulkSender where
  | sending | failed | ended
deriving DecidableEq

/-- The server's handler (`proto/src/server.rs:261-277`): reading the stream, having collected `got`; waiting for the library
call; or it has responded. -/
inductive BulkHandler where
  | reading (got : List BulkInsertItem)
  | calling (items : List BulkInsertItem)
  | responded (r : Except Status Unit)

/-- The caller of `Client::bulk_insert` (`proto/src/client.rs:205-229`): waiting for the response (221); it has the response;
the call has returned; or the caller has dropped the future. -/
inductive BulkCaller where
  | waiting
  | gotResponse (r : Except Status Unit)
  | returned (r : Except ClientError Unit)
  | cancelled

/-- The state: what the task still has to send and where it is, `last_err` (`proto/src/client.rs:207`), the channel, whether
its receiver (the body of the request) is still there, the messages on the wire, whether the end of the body was sent,
whether the gRPC stream is intact, the handler, the library calls it has made with their outcomes, and the caller. -/
structure BulkStream where
  todo : List BulkInsertItem
  sender : BulkSender
  lastErr : Bool
  queue : List PBulkInsertItem
  body : Bool
  wire : List PBulkInsertItem
  sentEnd : Bool
  up : Bool
  handler : BulkHandler
  calls : List (List BulkInsertItem × Res Unit)
  caller : BulkCaller

/-- `CHANNEL_CAPACITY` of the client (`proto/src/client.rs:15`). -/
def bulkChannelCapacity : Nat := 100

/-- What the handler does with the next message (`proto/src/server.rs:267-270`): a message that cannot be decoded or converted
ends the loop. -/
def bulkNext (letter : Char → Bool) (J : JsonText) (got : List BulkInsertItem) (m : PBulkInsertItem) : BulkHandler :=
  if wireOk m.size 4 then
    match mapConversionResult (m.conv letter J) with
    | .ok i => .reading (got ++ [i])
    | .error st => .responded (.error st)
  else .responded (.error .undecodable)

namespace BulkStream

/-- The call has been made, and the task has been spawned (`proto/src/client.rs:205-219`). -/
def start (items : List BulkInsertItem) : BulkStream :=
  ⟨items, .sending, false, [], true, [], false, true, .reading [], [], .waiting⟩

/-- One step of the task, the transport, the server, the caller or the environment. `window`: how many messages the transport
accepts before the server reads them. `abort`: the runtime may drop the sending task (which it does when it is shut down).
`proto/src/client.rs:205-229`, `proto/src/server.rs:261-277`. -/
inductive Step (letter : Char → Bool) (J : JsonText) (window : Nat) (abort : Bool) : BulkStream → BulkStream → Prop
  /-- `tx.send(item.into()).await` (`proto/src/client.rs:213`) with room in the channel -/
  | send (B : BulkStream) (i : BulkInsertItem) (r : List BulkInsertItem) : B.sender = .sending → B.todo = i :: r → B.body = true →
      B.queue.length < bulkChannelCapacity → Step letter J window abort B { B with todo := r, queue := B.queue ++ [i.toProto J] }
  /-- `send` fails because the receiver is gone (`proto/src/client.rs:213`) -/
  | sendFails (B : BulkStream) (i : BulkInsertItem) (r : List BulkInsertItem) : B.sender = .sending → B.todo = i :: r →
      B.body = false → Step letter J window abort B { B with sender := .failed }
  /-- the error is recorded, and the task ends (`proto/src/client.rs:214-215`) -/
  | record (B : BulkStream) : B.sender = .failed → Step letter J window abort B { B with sender := .ended, lastErr := true }
  /-- all items were sent, and the task ends -/
  | sentAll (B : BulkStream) : B.sender = .sending → B.todo = [] → Step letter J window abort B { B with sender := .ended }
  /-- the runtime drops the task -/
  | aborted (B : BulkStream) : abort = true → B.sender ≠ .ended → Step letter J window abort B { B with sender := .ended }
  /-- the transport takes a message from the body -/
  | take (B : BulkStream) (m : PBulkInsertItem) (r : List PBulkInsertItem) : B.up = true → B.body = true → B.queue = m :: r →
      B.wire.length < window → Step letter J window abort B { B with queue := r, wire := B.wire ++ [m] }
  /-- the body has ended: the channel is empty, and all senders are gone -/
  | finish (B : BulkStream) : B.up = true → B.body = true → B.sentEnd = false → B.queue = [] → B.sender = .ended →
      Step letter J window abort B { B with sentEnd := true }
  /-- the transport drops the body: the stream is broken, or there is a response already -/
  | dropBody (B : BulkStream) : B.body = true → (B.up = false ∨ ∃ r, B.handler = .responded r) →
      Step letter J window abort B { B with body := false, queue := [] }
  /-- `stream.next()` gives a message (`proto/src/server.rs:268-269`) -/
  | read (B : BulkStream) (got : List BulkInsertItem) (m : PBulkInsertItem) (r : List PBulkInsertItem) : B.handler = .reading got →
      B.wire = m :: r → Step letter J window abort B { B with wire := r, handler := bulkNext letter J got m }
  /-- `stream.next()` gives `None` (`proto/src/server.rs:268-275`): the library call is started -/
  | readEnd (B : BulkStream) (got : List BulkInsertItem) : B.handler = .reading got → B.wire = [] → B.sentEnd = true →
      Step letter J window abort B { B with handler := .calling got }
  /-- `stream.next()` gives an error because the stream is broken (`proto/src/server.rs:269`) -/
  | readBroken (B : BulkStream) (got : List BulkInsertItem) (code : Nat) : B.handler = .reading got → B.up = false →
      Step letter J window abort B { B with handler := .responded (.error (.other code)) }
  /-- the library call (`proto/src/server.rs:275`), with whatever outcome -/
  | call (B : BulkStream) (items : List BulkInsertItem) (r : Res Unit) : B.handler = .calling items →
      Step letter J window abort B { B with handler := .responded (mapJhIndraResult r), calls := B.calls ++ [(items, r)] }
  /-- the response arrives (`proto/src/client.rs:221`) -/
  | respond (B : BulkStream) (r : Except Status Unit) : B.caller = .waiting → B.handler = .responded r → B.up = true →
      Step letter J window abort B { B with caller := .gotResponse r }
  /-- the broken stream is reported to the caller (`proto/src/client.rs:221`) -/
  | noResponse (B : BulkStream) (code : Nat) : B.caller = .waiting → B.up = false →
      Step letter J window abort B { B with caller := .returned (.error (.grpc (.other code))) }
  /-- `?` (`proto/src/client.rs:221`) on an error -/
  | returnError (B : BulkStream) (st : Status) : B.caller = .gotResponse (.error st) →
      Step letter J window abort B { B with caller := .returned (.error (.grpc st)) }
  /-- the end of the call (`proto/src/client.rs:223-228`) -/
  | returnOk (B : BulkStream) : B.caller = .gotResponse (.ok ()) →
      Step letter J window abort B { B with caller := .returned (if B.lastErr then .error .channelClosed else .ok ()) }
  /-- the connection breaks, or the stream is reset -/
  | break_ (B : BulkStream) : B.up = true → Step letter J window abort B { B with up := false }
  /-- the caller drops the future: the stream is reset -/
  | cancel (B : BulkStream) : B.caller = .waiting → Step letter J window abort B { B with caller := .cancelled, up := false }

/-- Executions of a call with `items` with `n` steps. Not code: steps of `proto/src/client.rs:205-229`,
`proto/src/server.rs:261-277`. -/
inductive Exec (letter : Char → Bool) (J : JsonText) (window : Nat) (abort : Bool) (items : List BulkInsertItem) :
    Nat → BulkStream → Prop
  | start : Exec letter J window abort items 0 (start items)
  | step {n : Nat} {B B' : BulkStream} : Exec letter J window abort items n B → Step letter J window abort B B' →
      Exec letter J window abort items (n + 1) B'

end BulkStream
end IndraDB
