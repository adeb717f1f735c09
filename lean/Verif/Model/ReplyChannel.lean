import Verif.Model.Server
/-
The reply of `get` on its way to the client (`proto/src/server.rs:19-23, 231-249`): a blocking task evaluates the query and
sends the output values one by one into a bounded `tokio::sync::mpsc` channel, from which the gRPC response stream takes
them whenever the client is ready to receive.
-/
namespace IndraDB

/-- `CHANNEL_CAPACITY` (`proto/src/server.rs:17`). -/
def channelCapacity : Nat := 100

/-- A message in the channel. `proto/src/server.rs:19, 230`. -/
abbrev ReplyItem := Except Status POutput

/-- The channel and its two ends: what the task still has to send, what was sent and not yet received, what the client has
received, and whether the receiver was dropped (the client went away). `proto/src/server.rs:231-245`. -/
structure ReplyChannel where
  todo : List ReplyItem
  queue : List ReplyItem
  got : List ReplyItem
  closed : Bool

namespace ReplyChannel

/-- The loop over the output values starts with an empty channel (`proto/src/server.rs:234-236`). -/
def start (l : List ReplyItem) : ReplyChannel := ⟨l, [], [], false⟩

/-- One step of the task, the response stream, or the connection. `proto/src/server.rs:19-23, 231-245`. -/
inductive Step : ReplyChannel → ReplyChannel → Prop
  /-- `blocking_send` (`proto/src/server.rs:20`) with room in the channel -/
  | send (C : ReplyChannel) (x : ReplyItem) (r : List ReplyItem) : C.todo = x :: r → C.closed = false →
      C.queue.length < channelCapacity → Step C { C with todo := r, queue := C.queue ++ [x] }
  /-- `blocking_send` fails because the receiver is gone: an error is printed, and the loop goes on -/
  | sendFailed (C : ReplyChannel) (x : ReplyItem) (r : List ReplyItem) : C.todo = x :: r → C.closed = true →
      Step C { C with todo := r }
  /-- the client receives a message -/
  | recv (C : ReplyChannel) (x : ReplyItem) (r : List ReplyItem) : C.queue = x :: r → C.closed = false →
      Step C { C with queue := r, got := C.got ++ [x] }
  /-- the client goes away, and the response stream is dropped with what is in it -/
  | close (C : ReplyChannel) : C.closed = false → Step C { C with closed := true, queue := [] }

/-- Several steps. Not code: several steps of `proto/src/server.rs:231-245`. -/
inductive Steps : ReplyChannel → ReplyChannel → Prop
  | refl (C : ReplyChannel) : Steps C C
  | step {C D E : ReplyChannel} : Steps C D → Step D E → Steps C E

/-- The task, a thread of the pool for blocking work, waits for the client.
In `blocking_send` (`proto/src/server.rs:20`). -/
def TaskWaits (C : ReplyChannel) : Prop := C.todo ≠ [] ∧ C.closed = false ∧ channelCapacity ≤ C.queue.length

end ReplyChannel
end IndraDB
