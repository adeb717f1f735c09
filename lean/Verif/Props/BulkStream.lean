import Verif.Proofs.BulkStream
import Verif.Props.Server
/-
C80: a bulk insertion through the client, over all schedules of the sending task, the transport, the server, the caller and
the network.
-/
namespace IndraDB
open BulkStream

/-! ### Statements -/
section
variable {letter : Char → Bool} {J : JsonText} {items : List BulkInsertItem} {window n : Nat} {B : BulkStream}

/-- Whatever the schedule, and whether or not the connection breaks or the caller gives up: the library is called at most
once, and only with all items, in order. -/
theorem C80_bulk_once (h : Exec letter J window false items n B) :
    B.calls = [] ∨ ∃ l r, B.calls = [(l, r)] ∧ BulkArrives letter J items l := by
  have inv := h.inv
  cases hh : B.handler with
  | reading got => exact .inl (inv.reading got hh).1
  | calling l => exact .inl (inv.calling l hh).1
  | responded r =>
    rcases inv.responded r hh with h | ⟨l, x, a, _, _, b⟩
    · exact .inl h.1
    · exact .inr ⟨l, x, a, b⟩

/-- If the items have valid identifiers and values that survive printing and parsing, these are the items of the caller. -/
theorem C80_bulk_items (hv : ∀ i ∈ items, i.All (·.Valid letter) J.Faithful) (h : Exec letter J window false items n B) :
    B.calls = [] ∨ ∃ r, B.calls = [(items, r)] := by
  rcases C80_bulk_once h with h | ⟨l, r, a, b⟩
  · exact .inl h
  · refine .inr ⟨r, ?_⟩
    rw [a]
    have : l = items := by
      clear a h
      induction b with
      | nil => rfl
      | @cons i i' t t' _ hm _ ih =>
        have h1 := (PBulkInsertItem.conv_iff letter J _ _).2 hm
        rw [C42_item letter J i (hv i List.mem_cons_self)] at h1
        cases h1
        rw [ih (fun j hj => hv j (List.mem_cons_of_mem _ hj))]
    rw [this]

/-- The call returns `Ok` only if the library was called with all items and returned `Ok`. -/
theorem C80_bulk_ok (h : Exec letter J window false items n B) (hr : B.caller = .returned (.ok ())) :
    ∃ l, B.calls = [(l, .ok ())] ∧ BulkArrives letter J items l := by
  have inv := h.inv
  rcases inv.responded _ (inv.returnedOk hr) with ⟨_, st, e, _⟩ | ⟨l, x, a, b, _, c⟩
  · cases e
  · refine ⟨l, ?_, c⟩
    cases x with
    | ok u => exact a
    | error f => cases b

/-- An error is always a gRPC status (never a closed channel), and if the connection holds it says what happened: the
library was called with all items and failed with that error, or it was not called because an item was rejected. -/
theorem C80_bulk_error (h : Exec letter J window false items n B) {e : ClientError}
    (hr : B.caller = .returned (.error e)) :
    ∃ st, e = .grpc st ∧ (B.up = true →
      (∃ l f, B.calls = [(l, .error f)] ∧ BulkArrives letter J items l ∧ st = .internal f) ∨
      (B.calls = [] ∧ BulkRejected letter J items st)) := by
  have inv := h.inv
  obtain ⟨st, a, b⟩ := inv.returnedError e hr
  refine ⟨st, a, fun hu => ?_⟩
  rcases b with b | b
  · simp [hu] at b
  · rcases inv.responded _ b with ⟨c, st', d, e⟩ | ⟨l, x, c, d, _, e⟩
    · cases d
      rcases e with e | e
      · simp [hu] at e
      · exact .inr ⟨c, e.1⟩
    · refine .inl ⟨l, ?_⟩
      cases x with
      | ok u => cases d
      | error f => cases d; exact ⟨f, c, e, rfl⟩

/-- If the connection holds, what the caller gets and what happens to the database is what `Store.clientCall` says, the
one-step account of a bulk insertion through client and server that C44, C45, C68 and C76 are about. -/
theorem C80_bulk_step (h : Exec letter J window false items n B) (hu : B.up = true) {r : Except ClientError Unit}
    (hr : B.caller = .returned r) (S : Store) (env : S.Env) (s : S.State) :
    (B.calls = [] → S.clientCall letter J env (.bulkInsert items) s = (s, r.map (fun _ => .unit))) ∧
    (∀ l x, B.calls = [(l, x)] → (S.step env (.bulkInsert l) s).2.map (fun _ => ()) = x →
      S.clientCall letter J env (.bulkInsert items) s = ((S.step env (.bulkInsert l) s).1, r.map (fun _ => .unit))) := by
  have inv := h.inv
  have hm : clientRequest J (.bulkInsert items) = .bulkInsert (bulkMessages J items) := rfl
  have hres : ∃ q, B.handler = .responded q ∧ r = (match q with | .ok () => .ok () | .error st => .error (.grpc st)) := by
    cases r with
    | ok u => exact ⟨_, inv.returnedOk hr, rfl⟩
    | error e =>
      obtain ⟨st, a, b⟩ := inv.returnedError e hr
      rcases b with b | b
      · simp [hu] at b
      · exact ⟨_, b, by simp [a]⟩
  obtain ⟨q, hq, rfl⟩ := hres
  rcases inv.responded _ hq with ⟨c, st, rfl, e⟩ | ⟨l, x, c, rfl, _, e⟩
  · refine ⟨fun _ => ?_, fun l x hc => by simp [c] at hc⟩
    rcases e with e | e
    · simp [hu] at e
    · simp [Store.clientCall, hm, Request.fits, Store.handle, e.2, Except.map]
  · refine ⟨fun hc => by simp [c] at hc, ?_⟩
    intro l' x' hc hx
    rw [c] at hc
    simp only [List.cons.injEq, Prod.mk.injEq, and_true] at hc
    obtain ⟨rfl, rfl⟩ := hc
    simp only [Store.clientCall, hm, Request.fits, Store.handle, e.readItems, Store.serve, if_true]
    cases hs : (S.step env (.bulkInsert l) s).2 with
    | ok y => rw [hs] at hx; simp only [Except.map] at hx; subst hx; rfl
    | error f => rw [hs] at hx; simp only [Except.map] at hx; subst hx; rfl

/-- Every call comes to its end: every execution has at most `3 k + 9` steps for `k` items, and until the call has returned
some step is possible other than a broken connection or the caller giving up - however small the channel and the flow control
window are compared with the number of items, and even if the server stops reading in the middle. -/
theorem C80_bulk_returns (hw : 0 < window) (h : Exec letter J window false items n B) :
    n ≤ 3 * items.length + 9 ∧
    (¬ B.caller.Done → ∃ B', BulkStream.Step letter J window false B B' ∧ B'.up = B.up ∧ B'.caller ≠ .cancelled) :=
  ⟨by have := h.rank_le; omega, h.progress hw⟩

end

/-! ### Concrete cases -/

/-- Two items. -/
def W.twoItems : List BulkInsertItem := [.vertex ⟨W.u 1, fooIdent⟩, .vertex ⟨W.u 2, fooIdent⟩]

theorem W.twoItems_valid : ∀ i ∈ W.twoItems, i.All (·.Valid asciiAlnum) twoText.Faithful := by
  intro i hi
  simp only [W.twoItems, List.mem_cons, List.not_mem_nil, or_false] at hi
  rcases hi with rfl | rfl <;> simp [BulkInsertItem.All, fooIdent_valid]

theorem W.twoItems_next (i : BulkInsertItem) (hi : i ∈ W.twoItems) (got : List BulkInsertItem) :
    bulkNext asciiAlnum twoText got (i.toProto twoText) = .reading (got ++ [i]) := by
  have h1 := C42_item asciiAlnum twoText i (W.twoItems_valid i hi)
  have h2 : wireOk (i.toProto twoText).size 4 = true := by
    simp only [W.twoItems, List.mem_cons, List.not_mem_nil, or_false] at hi
    rcases hi with rfl | rfl <;> decide +kernel
  simp only [bulkNext, h2, if_true, h1, mapConversionResult]

/-- With a window of one message: both items are sent, received and inserted, and the call returns `Ok`. -/
theorem W.twoItems_sent : ∃ B, Exec asciiAlnum twoText 1 false W.twoItems 13 B ∧ B.caller = .returned (.ok ()) ∧
    B.calls = [(W.twoItems, .ok ())] ∧ B.up = true := by
  refine ⟨_, .step (.step (.step (.step (.step (.step (.step (.step (.step (.step (.step (.step (.step .start
    (.send _ _ _ rfl rfl rfl (by decide))) (.take _ _ _ rfl rfl rfl (by decide))) (.send _ _ _ rfl rfl rfl (by decide)))
    (.read _ _ _ _ rfl rfl))
    (.sentAll _ rfl rfl)) (.take _ _ _ rfl rfl rfl (by decide))) (.finish _ rfl rfl rfl rfl rfl))
    (.read _ [.vertex ⟨W.u 1, fooIdent⟩] _ _ (W.twoItems_next _ (by simp [W.twoItems]) []) rfl))
    (.readEnd _ W.twoItems (W.twoItems_next _ (by simp [W.twoItems]) _) rfl rfl))
    (.call _ _ (.ok ()) rfl)) (.respond _ _ rfl rfl rfl)) (.returnOk _ rfl)) (.dropBody _ rfl (.inr ⟨_, rfl⟩)), ?_, ?_, ?_⟩
  all_goals rfl

example : ∃ B, Exec asciiAlnum twoText 1 false W.twoItems 13 B ∧
    (∃ r, B.calls = [(W.twoItems, r)]) ∧ (∃ l, B.calls = [(l, .ok ())] ∧ BulkArrives asciiAlnum twoText W.twoItems l) := by
  obtain ⟨B, h, r, c, _⟩ := W.twoItems_sent
  refine ⟨B, h, ?_, C80_bulk_ok h r⟩
  rcases C80_bulk_items W.twoItems_valid h with d | d
  · simp [c] at d
  · exact d

/-- An item with an identifier that is not valid, and one that is. -/
def W.badItems : List BulkInsertItem :=
  [.vertex ⟨W.u 1, ⟨strBytes "a b", by decide +kernel⟩⟩, .vertex ⟨W.u 2, fooIdent⟩]

theorem W.badItems_next (i : BulkInsertItem) (hi : W.badItems.head? = some i) :
    bulkNext asciiAlnum twoText [] (i.toProto twoText) = .responded (.error (.invalidArgument (.validation .invalidValue))) := by
  simp only [W.badItems, List.head?_cons, Option.some.injEq] at hi
  subst hi
  have h2 : wireOk ((BulkInsertItem.vertex ⟨W.u 1, ⟨strBytes "a b", by decide +kernel⟩⟩).toProto twoText).size 4 = true := by
    decide +kernel
  have h1 : ((BulkInsertItem.vertex ⟨W.u 1, ⟨strBytes "a b", by decide +kernel⟩⟩).toProto twoText).conv asciiAlnum twoText =
      .error (.validation .invalidValue) := by rfl
  simp only [bulkNext, h2, if_true, h1, mapConversionResult]

/-- The server responds with an error while the task is still sending, the body is dropped, the second `send` fails, and the
caller gets the error of the server. -/
theorem W.badItems_sent : ∃ B, Exec asciiAlnum twoText 1 false W.badItems 8 B ∧
    B.caller = .returned (.error (.grpc (.invalidArgument (.validation .invalidValue)))) ∧
    B.calls = [] ∧ B.up = true ∧ B.lastErr = true := by
  refine ⟨_, .step (.step (.step (.step (.step (.step (.step (.step .start
    (.send _ _ _ rfl rfl rfl (by decide))) (.take _ _ _ rfl rfl rfl (by decide)))
    (.read _ _ _ _ rfl rfl))
    (.dropBody _ rfl (.inr ⟨_, W.badItems_next _ rfl⟩)))
    (.respond _ _ rfl (W.badItems_next _ rfl) rfl))
    (.sendFails _ _ _ rfl rfl rfl))
    (.record _ rfl)) (.returnError _ _ rfl), ?_, ?_, ?_⟩
  all_goals first | rfl | exact ⟨rfl, rfl⟩

example : BulkRejected asciiAlnum twoText W.badItems (.invalidArgument (.validation .invalidValue)) := by
  obtain ⟨B, h, r, c, u, _⟩ := W.badItems_sent
  obtain ⟨st, hst, hx⟩ := C80_bulk_error h r
  cases hst
  rcases hx u with ⟨l, f, d, _⟩ | d
  · simp [c] at d
  · exact d.2

/-- In the one-step account, in a store whose bulk insertion succeeds, and for the bad item. -/
example (S : Store) (env : S.Env) (s : S.State) (hs : (S.step env (.bulkInsert W.twoItems) s).2 = .ok .unit) :
    S.clientCall asciiAlnum twoText env (.bulkInsert W.twoItems) s = ((S.step env (.bulkInsert W.twoItems) s).1, .ok .unit) ∧
    S.clientCall asciiAlnum twoText env (.bulkInsert W.badItems) s =
      (s, .error (.grpc (.invalidArgument (.validation .invalidValue)))) := by
  obtain ⟨B, h, r, c, u⟩ := W.twoItems_sent
  obtain ⟨B', h', r', c', u', _⟩ := W.badItems_sent
  exact ⟨(C80_bulk_step h u r S env s).2 _ _ c (by rw [hs]; rfl), (C80_bulk_step h' u' r' S env s).1 c'⟩

/-- More items than the channel and the window hold: the call has not returned at the start, and something can happen. -/
example : ∃ B', BulkStream.Step asciiAlnum twoText 1 false (start (List.replicate 1000 (.vertex ⟨W.u 1, fooIdent⟩))) B' ∧
    B'.up = true ∧ B'.caller ≠ .cancelled :=
  (C80_bulk_returns (by decide) .start).2 id

/-! ### Without the assumption on the runtime -/

/-- If the runtime drops the sending task (it does so when it is shut down), the end of the channel looks to the transport
like the end of the items: the first item is inserted without the second, and the caller may get `Ok`. -/
theorem C80_bulk_aborted_refuted : ∃ B, Exec asciiAlnum twoText 1 true W.twoItems 9 B ∧ B.caller = .returned (.ok ()) ∧
    B.calls = [([.vertex ⟨W.u 1, fooIdent⟩], .ok ())] ∧ B.up = true := by
  refine ⟨_, .step (.step (.step (.step (.step (.step (.step (.step (.step .start
    (.send _ _ _ rfl rfl rfl (by decide))) (.aborted _ rfl (by simp [start]))) (.take _ _ _ rfl rfl rfl (by decide)))
    (.finish _ rfl rfl rfl rfl rfl)) (.read _ _ _ _ rfl rfl))
    (.readEnd _ _ (W.twoItems_next _ (by simp [W.twoItems]) []) rfl rfl))
    (.call _ _ (.ok ()) rfl)) (.respond _ _ rfl rfl rfl)) (.returnOk _ rfl), ?_, ?_, ?_⟩
  all_goals rfl

end IndraDB
