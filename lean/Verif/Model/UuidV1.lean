import Verif.Model.Types
/-
Model of `generate_uuid_v1` (`lib/src/util.rs:17-19, 135-137`) with `uuid` 1.12.0 (the version in `Cargo.lock`; the crate
is not in the sandbox, its behaviour is part of the trusted base).
-/
namespace IndraDB

/-- A reading of the system clock: seconds and nanoseconds since the Unix epoch.
Read by `Timestamp::now` at `lib/src/util.rs:136`. -/
structure Clock where
  secs : Nat
  nanos : Nat

/-- `Timestamp::unix_to_gregorian_ticks`: 100 ns ticks since 1582-10-15, `u64` with wrap-around.
Called from `lib/src/util.rs:136`. -/
def Clock.ticks (c : Clock) : Nat := (122192928000000000 + c.secs * 10000000 + c.nanos / 100) % 2^64

/-- `encode_gregorian_timestamp(ticks, counter, node_id)`: 32 bits time low, 16 bits time mid, 4 bits version and 12 bits
time high, 2 bits variant and 14 bits counter, node id; big-endian. Called from `lib/src/util.rs:136`. -/
def packV1 (ticks counter : Nat) (node : Bytes) (h : node.length = 6) : Uuid :=
  ⟨[UInt8.ofNat (ticks / 2^24), UInt8.ofNat (ticks / 2^16), UInt8.ofNat (ticks / 2^8), UInt8.ofNat ticks,
    UInt8.ofNat (ticks / 2^40), UInt8.ofNat (ticks / 2^32),
    UInt8.ofNat (16 + ticks / 2^56 % 16), UInt8.ofNat (ticks / 2^48),
    UInt8.ofNat (128 + counter / 2^8 % 64), UInt8.ofNat counter] ++ node, by simp [h]⟩

/-- `NODE_ID` (`lib/src/util.rs:17`). -/
def nodeId : Bytes := [0, 0, 0, 0, 0, 0]

theorem nodeId_length : nodeId.length = 6 := rfl

/-- `generate_uuid_v1` (`lib/src/util.rs:135-137`). The state is the `AtomicU16` in `CONTEXT` (`lib/src/util.rs:19`), initially 0;
`generate_sequence` is `count.fetch_add(1) & 0x3fff`. -/
def generateUuidV1 (c : Clock) (count : Nat) : Uuid × Nat :=
  (packV1 c.ticks (count % 2^14) nodeId nodeId_length, (count + 1) % 2^16)

/-- Successive calls (in the order of their `fetch_add`), each with its own reading of the clock.
Calls of `generate_uuid_v1` (`lib/src/util.rs:135-137`). -/
def generateAll : List Clock → Nat → List Uuid
  | [], _ => []
  | c :: r, count => (generateUuidV1 c count).1 :: generateAll r (generateUuidV1 c count).2

end IndraDB
