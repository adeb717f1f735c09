import Verif.Proofs.GetStream
import Verif.Props.Server
/-
C82: a query through the client, over all schedules of the task that evaluates it, the channel, the transport, the caller and
the network.
-/
namespace IndraDB
open GetStream

/-! ### Statements -/
section
variable {letter : Char → Bool} {J : JsonText} {window n : Nat} {G : GetStream}

/-- `Ok` comes with all output values of the library call, in order: a reply cut short is never taken for a whole one. The
only exception: a panic of the library call looks like an empty list of outputs (see C45). -/
theorem C82_get_ok (h : Exec letter J window n G) {l : List Output} (hr : G.caller = .returned (.ok l)) :
    (∃ os, G.outcome = some (.ok os) ∧ OutputsArrive letter J os l) ∨ (G.outcome = some (.error .panic) ∧ l = []) := by
  obtain ⟨a, b⟩ := h.inv.returnedOk l hr
  cases ho : G.outcome with
  | none => exact absurd ho a
  | some r =>
    simp only [stream, ho] at b
    cases r with
    | ok os => exact .inl ⟨os, rfl, (readOutputs_arrive os l).1 b⟩
    | error f =>
      cases f with
      | err e => cases b
      | panic => cases b; exact .inr ⟨rfl, rfl⟩

/-- If the outputs have valid identifiers and values that survive printing and parsing, the caller gets just these outputs. -/
theorem C82_get_items (h : Exec letter J window n G) {l os : List Output} (hr : G.caller = .returned (.ok l))
    (ho : G.outcome = some (.ok os)) (hv : ∀ o ∈ os, o.All (·.Valid letter) J.Faithful) : l = os := by
  rcases C82_get_ok h hr with ⟨os', a, b⟩ | ⟨a, _⟩
  · rw [ho] at a
    cases a
    clear ho hr h
    induction b with
    | nil => rfl
    | @cons o o' t t' _ hm _ ih =>
      have h1 := (POutput.conv_iff letter J _ _).2 hm
      rw [C42_output letter J o (hv o List.mem_cons_self)] at h1
      cases h1
      rw [ih (fun j hj => hv j (List.mem_cons_of_mem _ hj))]
  · rw [ho] at a; cases a

/-- An error says what happened: the connection broke, the library call failed with that error, or an output value cannot be
received. -/
theorem C82_get_error (h : Exec letter J window n G) {e : ClientError} (hr : G.caller = .returned (.error e)) :
    (∃ code, e = .grpc (.other code) ∧ G.up = false) ∨
    (∃ f, G.outcome = some (.error (.err f)) ∧ e = .grpc (.internal (.err f))) ∨
    (∃ os, G.outcome = some (.ok os) ∧ OutputRejected letter J os e) := by
  rcases h.inv.returnedError e hr with h | ⟨a, b⟩
  · exact .inl h
  · refine .inr ?_
    cases ho : G.outcome with
    | none => exact absurd ho a
    | some r =>
      simp only [stream, ho] at b
      cases r with
      | ok os => exact .inr ⟨os, rfl, readOutputs_rejected os e b⟩
      | error f =>
        cases f with
        | err f => cases b; exact .inl ⟨f, rfl, rfl⟩
        | panic => cases b

/-- If the connection holds, what the caller gets is what `Store.clientCall` says, the one-step account of a query through
client and server that C45, C62, C68 and C76 are about. -/
theorem C82_get_step (h : Exec letter J window n G) (hu : G.up = true) {r : Except ClientError (List Output)}
    (hr : G.caller = .returned r) (S : Store) (env : S.Env) (s : S.State) (q q' : Query)
    (hfit : wireOk (q.toProto J).size (q.toProto J).depth = true) (hc : (q.toProto J).conv letter J = .ok q')
    (ho : G.outcome.map (·.map Reply.outputs) = some (S.step env (.get q') s).2) :
    S.clientCall letter J env (.get q) s = ((S.step env (.get q') s).1, r.map Reply.outputs) := by
  have hread : readOutputs letter J (getStream J (S.step env (.get q') s).2) = r := by
    cases hG : G.outcome with
    | none => simp [hG] at ho
    | some x =>
      simp only [hG, Option.map_some, Option.some.injEq] at ho
      have hs : G.stream J = getStream J (S.step env (.get q') s).2 := by simp only [stream, hG, outcomeStream, ho]
      rw [← hs]
      cases r with
      | ok l => exact (h.inv.returnedOk l hr).2
      | error e =>
        rcases h.inv.returnedError e hr with ⟨_, _, b⟩ | b
        · simp [hu] at b
        · exact b.2
  simp only [Store.clientCall, clientRequest, Request.fits, hfit, if_true, Store.handle, hc, mapConversionResult, clientReply,
    hread]
  cases r <;> rfl

/-- Every call comes to its end: every execution has at most `3 k + 6` steps for `k` messages, and until the call has returned
some step is possible other than a broken connection or the caller giving up - however small the channel and the flow control
window are compared with the number of outputs. -/
theorem C82_get_returns (hw : 0 < window) (h : Exec letter J window n G) :
    n ≤ 3 * (match G.outcome with | some (.ok os) => os.length | _ => 1) + 6 ∧
    (¬ G.caller.Done → ∃ G', GetStream.Step letter J window G G' ∧ G'.up = G.up ∧ G'.caller ≠ .cancelled) := by
  refine ⟨?_, h.progress hw⟩
  have h1 := h.rank_le
  have h2 : (G.stream J).length ≤ (match G.outcome with | some (.ok os) => os.length | _ => 1) := by
    cases ho : G.outcome with
    | none => simp [stream, ho]
    | some r =>
      cases r with
      | ok os => simp [stream, ho, outcomeStream, getStream, Except.map]
      | error f => cases f <;> simp [stream, ho, outcomeStream, getStream, Except.map]
  omega

/-- The caller giving up, or the connection breaking, does not keep the task of the server waiting: as long as the task has not
ended, it can take a step, or the transport can make room for it. (With a caller that does not read any more, dropping the body
is what makes room.) -/
theorem C82_get_task (h : Exec letter J window n G) (ht : G.task ≠ .ended)
    (hx : G.up = false ∨ ∀ got, G.caller ≠ .reading got) : ∃ G', GetStream.Step letter J window G G' ∧
      (G'.task ≠ G.task ∨ G'.todo.length < G.todo.length ∨ (G.body = true ∧ G'.body = false ∧ G'.task = G.task)) := by
  cases hk : G.task with
  | ended => exact absurd hk ht
  | evaluating => exact ⟨_, .eval G (.ok []) hk, .inl (by simp)⟩
  | sending =>
    cases htd : G.todo with
    | nil => exact ⟨_, .sentAll G hk htd, .inl (by simp)⟩
    | cons x r =>
      cases hb : G.body with
      | false => exact ⟨_, .sendFails G x r hk htd hb, .inr (.inl (by simp))⟩
      | true => exact ⟨_, .dropBody G hb hx, .inr (.inr ⟨rfl, rfl, hk⟩)⟩

end

/-! ### Concrete cases -/

/-- Two outputs. -/
def W.twoOutputs : List Output := [.vertices [⟨W.u 1, fooIdent⟩], .count 7]

theorem W.twoOutputs_valid : ∀ o ∈ W.twoOutputs, o.All (·.Valid asciiAlnum) twoText.Faithful := by
  intro o ho
  simp only [W.twoOutputs, List.mem_cons, List.not_mem_nil, or_false] at ho
  rcases ho with rfl | rfl <;> simp [Output.All, fooIdent_valid]

theorem W.twoOutputs_next (o : Output) (ho : o ∈ W.twoOutputs) (got : List Output) :
    getNext asciiAlnum twoText got (.ok (o.toProto twoText)) = .reading (got ++ [o]) := by
  have h1 := C42_output asciiAlnum twoText o (W.twoOutputs_valid o ho)
  have h2 : wireOk (o.toProto twoText).size 4 = true := by
    simp only [W.twoOutputs, List.mem_cons, List.not_mem_nil, or_false] at ho
    rcases ho with rfl | rfl <;> decide +kernel
  simp only [getNext, h2, if_true, h1]

/-- With a window of one message: both outputs are sent and received. -/
theorem W.twoOutputs_sent : ∃ G, Exec asciiAlnum twoText 1 10 G ∧ G.caller = .returned (.ok W.twoOutputs) ∧
    G.outcome = some (.ok W.twoOutputs) ∧ G.up = true := by
  refine ⟨_, .step (.step (.step (.step (.step (.step (.step (.step (.step (.step .start
    (.eval _ (.ok W.twoOutputs) rfl)) (.send _ _ _ rfl rfl rfl (by decide))) (.take _ _ _ rfl rfl rfl (by decide)))
    (.send _ _ _ rfl rfl rfl (by decide))) (.read _ _ _ _ rfl rfl)) (.take _ _ _ rfl rfl rfl (by decide)))
    (.sentAll _ rfl rfl)) (.finish _ rfl rfl rfl rfl rfl))
    (.read _ [.vertices [⟨W.u 1, fooIdent⟩]] _ _ (W.twoOutputs_next _ (by simp [W.twoOutputs]) []) rfl))
    (.readEnd _ W.twoOutputs (W.twoOutputs_next _ (by simp [W.twoOutputs]) _) rfl rfl), ?_, ?_, ?_⟩
  all_goals rfl

example : ∃ G, Exec asciiAlnum twoText 1 10 G ∧ G.caller = .returned (.ok W.twoOutputs) ∧
    OutputsArrive asciiAlnum twoText W.twoOutputs W.twoOutputs := by
  obtain ⟨G, h, r, o, _⟩ := W.twoOutputs_sent
  refine ⟨G, h, r, ?_⟩
  rcases C82_get_ok h r with ⟨os, a, b⟩ | ⟨a, _⟩
  · rw [o] at a; cases a; exact b
  · rw [o] at a; cases a

example {G : GetStream} {n : Nat} {l : List Output} (h : Exec asciiAlnum twoText 1 n G) (hr : G.caller = .returned (.ok l))
    (ho : G.outcome = some (.ok W.twoOutputs)) : l = W.twoOutputs := C82_get_items h hr ho W.twoOutputs_valid

/-- The connection breaks after the first output has been received: the caller gets an error, not a list of one. -/
theorem W.twoOutputs_broken : ∃ G, Exec asciiAlnum twoText 1 6 G ∧
    G.caller = .returned (.error (.grpc (.other 14))) ∧ G.outcome = some (.ok W.twoOutputs) ∧ G.up = false := by
  refine ⟨_, .step (.step (.step (.step (.step (.step .start
    (.eval _ (.ok W.twoOutputs) rfl)) (.send _ _ _ rfl rfl rfl (by decide))) (.take _ _ _ rfl rfl rfl (by decide)))
    (.read _ _ _ _ rfl rfl)) (.break_ _ rfl))
    (.readBroken _ [.vertices [⟨W.u 1, fooIdent⟩]] 14 (W.twoOutputs_next _ (by simp [W.twoOutputs]) []) rfl), ?_, ?_, ?_⟩
  all_goals rfl

example : ∃ G, Exec asciiAlnum twoText 1 6 G ∧ ∃ code, ClientError.grpc (.other 14) = .grpc (.other code) ∧ G.up = false := by
  obtain ⟨G, h, r, o, u⟩ := W.twoOutputs_broken
  refine ⟨G, h, ?_⟩
  rcases C82_get_error h r with x | ⟨f, a, _⟩ | ⟨os, a, o', _, ⟨_, b⟩ | ⟨_, c, b⟩⟩
  · exact x
  · rw [o] at a; cases a
  · cases b
  · cases b

/-- The caller gives up while the task is sending: the body is dropped, and the task goes on to its end. -/
theorem W.twoOutputs_cancelled : ∃ G, Exec asciiAlnum twoText 1 6 G ∧ G.caller = .cancelled ∧ G.task = .ended := by
  refine ⟨_, .step (.step (.step (.step (.step (.step .start
    (.eval _ (.ok W.twoOutputs) rfl)) (.send _ _ _ rfl rfl rfl (by decide))) (.cancel _ [] rfl))
    (.dropBody _ rfl (.inr (by simp)))) (.sendFails _ _ _ rfl rfl rfl)) (.sentAll _ rfl rfl), ?_, ?_⟩
  all_goals rfl

/-- In the one-step account, in a store whose query gives two outputs. -/
example (S : Store) (env : S.Env) (s : S.State) (hs : (S.step env (.get nestedQuery) s).2 = .ok (.outputs W.twoOutputs)) :
    S.clientCall asciiAlnum twoText env (.get nestedQuery) s =
      ((S.step env (.get nestedQuery) s).1, .ok (.outputs W.twoOutputs)) := by
  obtain ⟨G, h, r, o, u⟩ := W.twoOutputs_sent
  exact C82_get_step h u r S env s nestedQuery nestedQuery (by decide +kernel) (C42_query _ _ _ nestedQuery_valid)
    (by rw [o, hs]; rfl)

/-- At the start the call has not returned, and something can happen. -/
example : ∃ G', GetStream.Step asciiAlnum twoText 1 start G' ∧ G'.up = true ∧ G'.caller ≠ .cancelled :=
  (C82_get_returns (by decide) .start).2 id

/-- A panic of the library call is taken for an empty reply (the finding of C45, here through channel and transport). -/
theorem C82_get_panic_refuted : ∃ G, Exec asciiAlnum twoText 1 4 G ∧ G.caller = .returned (.ok []) ∧
    G.outcome = some (.error .panic) ∧ G.up = true := by
  refine ⟨_, .step (.step (.step (.step .start (.eval _ (.error .panic) rfl)) (.sentAll _ rfl rfl))
    (.finish _ rfl rfl rfl rfl rfl)) (.readEnd _ [] rfl rfl rfl), ?_, ?_, ?_⟩
  all_goals rfl

end IndraDB
