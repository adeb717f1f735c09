import Verif.Spec.BulkStream
import Verif.Proofs.Server
/-
Invariants of `BulkStream`.
-/
namespace IndraDB
variable {letter : Char → Bool} {J : JsonText}

theorem BulkArrives.snoc {a l : List BulkInsertItem} {i i' : BulkInsertItem} (h : BulkArrives letter J a l)
    (hs : (i.toProto J).size ≤ 4194304) (hm : PBulkInsertItem.Means letter J (i.toProto J) i') :
    BulkArrives letter J (a ++ [i]) (l ++ [i']) := by
  induction h with
  | nil => exact .cons hs hm .nil
  | cons a b _ ih => exact .cons a b ih

/-- What `bulkNext` does. -/
theorem bulkNext_cases (got : List BulkInsertItem) (m : PBulkInsertItem) :
    (∃ i', m.size ≤ 4194304 ∧ PBulkInsertItem.Means letter J m i' ∧ bulkNext letter J got m = .reading (got ++ [i'])) ∨
    (4194304 < m.size ∧ bulkNext letter J got m = .responded (.error .undecodable)) ∨
    (m.size ≤ 4194304 ∧ (¬ ∃ i', PBulkInsertItem.Means letter J m i') ∧ ∃ e, m.conv letter J = .error e ∧
      bulkNext letter J got m = .responded (.error (.invalidArgument e))) := by
  unfold bulkNext
  by_cases hs : m.size ≤ 4194304
  · have : wireOk m.size 4 = true := by simp [wireOk, hs]
    rw [if_pos this]
    cases hc : m.conv letter J with
    | ok i => exact .inl ⟨i, hs, (PBulkInsertItem.conv_iff letter J _ _).1 hc, rfl⟩
    | error e =>
      refine .inr (.inr ⟨hs, ?_, e, rfl, rfl⟩)
      rintro ⟨i', hi⟩
      rw [(PBulkInsertItem.conv_iff letter J _ _).2 hi] at hc; cases hc
  · have : ¬ wireOk m.size 4 = true := by simp [wireOk, hs]
    rw [if_neg this]; exact .inr (.inl ⟨by omega, rfl⟩)

/-- The stream of a call, as `Model/Server.lean` has it. -/
def bulkMessages (J : JsonText) (items : List BulkInsertItem) : List (Except Status PBulkInsertItem) :=
  items.map (fun i => if wireOk (i.toProto J).size 4 then .ok (i.toProto J) else .error .undecodable)

theorem BulkArrives.readItems_append {pre l : List BulkInsertItem} (h : BulkArrives letter J pre l)
    (suf : List BulkInsertItem) : readItems letter J (bulkMessages J (pre ++ suf)) =
      (match readItems letter J (bulkMessages J suf) with | .error st => .error st | .ok l' => .ok (l ++ l')) := by
  induction h with
  | nil => simp only [List.nil_append]; cases readItems letter J (bulkMessages J suf) <;> rfl
  | @cons i i' r r' hs hm _ ih =>
    have : wireOk (i.toProto J).size 4 = true := by simp [wireOk, hs]
    have hc : bulkMessages J (i :: r ++ suf) = .ok (i.toProto J) :: bulkMessages J (r ++ suf) := by
      simp [bulkMessages, this]
    rw [hc]
    simp only [IndraDB.readItems, (PBulkInsertItem.conv_iff letter J _ _).2 hm, mapConversionResult, ih]
    cases IndraDB.readItems letter J (bulkMessages J suf) <;> rfl

theorem BulkArrives.readItems {l items : List BulkInsertItem} (h : BulkArrives letter J items l) :
    readItems letter J (bulkMessages J items) = .ok l := by
  have := h.readItems_append []
  simpa [bulkMessages, IndraDB.readItems] using this

namespace BulkStream

/-- What holds throughout an execution in which the sending task is not aborted. -/
structure Inv (letter : Char → Bool) (J : JsonText) (items : List BulkInsertItem) (B : BulkStream) : Prop where
  body : B.body = true → B.lastErr = false ∧ B.sender ≠ .failed
  sender : B.sender = .ended → B.lastErr = true ∨ B.todo = []
  sentEnd : B.sentEnd = true → B.sender = .ended ∧ B.todo = [] ∧ B.queue = [] ∧ B.lastErr = false
  reading : ∀ got, B.handler = .reading got → B.calls = [] ∧ ∃ pre suf, items = pre ++ suf ∧ BulkArrives letter J pre got ∧
    B.wire <+: suf.map (·.toProto J) ∧
    (B.body = true ∨ B.sentEnd = true → B.wire ++ B.queue ++ B.todo.map (·.toProto J) = suf.map (·.toProto J))
  calling : ∀ l, B.handler = .calling l → B.calls = [] ∧ B.sentEnd = true ∧ BulkArrives letter J items l
  responded : ∀ r, B.handler = .responded r →
    (B.calls = [] ∧ ∃ st, r = .error st ∧ (B.up = false ∨
      BulkRejected letter J items st ∧ readItems letter J (bulkMessages J items) = .error st)) ∨
    (∃ l x, B.calls = [(l, x)] ∧ r = mapJhIndraResult x ∧ B.sentEnd = true ∧ BulkArrives letter J items l)
  gotResponse : ∀ r, B.caller = .gotResponse r → B.handler = .responded r
  returnedOk : B.caller = .returned (.ok ()) → B.handler = .responded (.ok ())
  returnedError : ∀ e, B.caller = .returned (.error e) →
    ∃ st, e = .grpc st ∧ (B.up = false ∨ B.handler = .responded (.error st))
  cancelled : B.caller = .cancelled → B.up = false

theorem Inv.start (items : List BulkInsertItem) : Inv letter J items (start items) := by
  constructor <;> simp [BulkStream.start]
  exact ⟨[], items, rfl, .nil, rfl⟩

theorem Inv.step {items : List BulkInsertItem} {window : Nat} {B B' : BulkStream} (h : Inv letter J items B)
    (st : Step letter J window false B B') : Inv letter J items B' := by
  obtain ⟨h1, h2, h3, h4, h5, h6, h7, h8, h9, h10⟩ := h
  cases st with
  | send i r hs ht hb hq =>
    refine ⟨h1, by simp [hs], ?_, ?_, h5, h6, h7, h8, h9, h10⟩
    · intro h; simp [hs] at h3; simp [h3] at h
    · intro got hg
      obtain ⟨a, pre, suf, b, c, d, e⟩ := h4 got hg
      refine ⟨a, pre, suf, b, c, d, ?_⟩
      intro _; simp [← e (.inl hb), ht]
  | sendFails i r hs ht hb =>
    refine ⟨by simp [hb], by simp, ?_, h4, h5, h6, h7, h8, h9, h10⟩
    intro h; simp [hs] at h3; simp [h3] at h
  | record hs =>
    refine ⟨?_, by simp, ?_, h4, h5, h6, h7, h8, h9, h10⟩
    · intro h; exact absurd hs (h1 h).2
    · intro h; simp [hs] at h3; simp [h3] at h
  | sentAll hs ht =>
    refine ⟨fun h => ⟨(h1 h).1, by simp⟩, fun _ => .inr ht, ?_, h4, h5, h6, h7, h8, h9, h10⟩
    intro h; simp [hs] at h3; simp [h3] at h
  | aborted h => cases h
  | take m r hu hb hq hw =>
    refine ⟨h1, h2, ?_, ?_, h5, h6, h7, h8, h9, h10⟩
    · intro h; have := (h3 h).2.2.1; simp [hq] at this
    · intro got hg
      obtain ⟨a, pre, suf, b, c, d, e⟩ := h4 got hg
      have e := e (.inl hb)
      refine ⟨a, pre, suf, b, c, ?_, ?_⟩
      · exact ⟨r ++ B.todo.map (·.toProto J), by rw [← e, hq]; simp⟩
      · intro _; rw [← e, hq]; simp
  | finish hu hb hn hq hs =>
    have ht : B.todo = [] := by
      rcases h2 hs with h | h
      · simp [(h1 hb).1] at h
      · exact h
    refine ⟨h1, h2, fun _ => ⟨hs, ht, hq, (h1 hb).1⟩, ?_, ?_, ?_, h7, h8, h9, h10⟩
    · intro got hg
      obtain ⟨a, pre, suf, b, c, d, e⟩ := h4 got hg
      exact ⟨a, pre, suf, b, c, d, fun _ => e (.inl hb)⟩
    · intro l hl; exact ⟨(h5 l hl).1, rfl, (h5 l hl).2.2⟩
    · intro r hr
      rcases h6 r hr with h | ⟨l, x, a, b, _, c⟩
      · exact .inl h
      · exact .inr ⟨l, x, a, b, rfl, c⟩
  | dropBody hb hx =>
    refine ⟨by simp, h2, fun h => ⟨(h3 h).1, (h3 h).2.1, rfl, (h3 h).2.2.2⟩, ?_, h5, h6, h7, h8, h9, h10⟩
    intro got hg
    obtain ⟨a, pre, suf, b, c, d, e⟩ := h4 got hg
    refine ⟨a, pre, suf, b, c, d, ?_⟩
    intro h
    rcases h with h | h
    · cases h
    · have := e (.inr h); rw [(h3 h).2.2.1] at this; exact this
  | read got m r hg hw =>
    obtain ⟨a, pre, suf, b, c, d, e⟩ := h4 got hg
    obtain ⟨i, suf', hsuf, him⟩ : ∃ i suf', suf = i :: suf' ∧ i.toProto J = m := by
      obtain ⟨t, ht⟩ := d
      rw [hw] at ht
      cases suf with
      | nil => simp at ht
      | cons i s => simp at ht; exact ⟨i, s, rfl, ht.1.symm⟩
    subst hsuf; subst him
    have hcl : ∀ x, B.caller = .gotResponse x → False := fun x hx => by have := h7 x hx; rw [hg] at this; cases this
    have hro : B.caller = .returned (.ok ()) → False := fun hx => by have := h8 hx; rw [hg] at this; cases this
    have hre : ∀ e, B.caller = .returned (.error e) → ∃ st, e = .grpc st ∧ B.up = false := by
      intro e he
      obtain ⟨st, x, y⟩ := h9 e he
      refine ⟨st, x, ?_⟩
      rcases y with y | y
      · exact y
      · rw [hg] at y; cases y
    rcases bulkNext_cases (letter := letter) (J := J) got (i.toProto J) with ⟨i', p, q, s⟩ | ⟨p, s⟩ | ⟨p, q, e', s', s⟩
    · refine ⟨h1, h2, h3, ?_, ?_, ?_, fun x hx => (hcl x hx).elim, fun hx => (hro hx).elim, ?_, h10⟩
      · intro got' hg'
        simp only [s, BulkHandler.reading.injEq] at hg'
        subst hg'
        refine ⟨a, pre ++ [i], suf', by rw [b]; simp, c.snoc p q, ?_, ?_⟩
        · rw [hw] at d; simpa using d
        · intro h; have := e h; rw [hw] at this; simpa using this
      · intro l hl; simp [s] at hl
      · intro l hl; simp [s] at hl
      · intro e he; obtain ⟨st, x, y⟩ := hre e he; exact ⟨st, x, .inl y⟩
    · refine ⟨h1, h2, h3, ?_, ?_, ?_, fun x hx => (hcl x hx).elim, fun hx => (hro hx).elim, ?_, h10⟩
      · intro l hl; simp [s] at hl
      · intro l hl; simp [s] at hl
      · intro l hl
        simp only [s, BulkHandler.responded.injEq] at hl
        refine .inl ⟨a, _, hl.symm, .inr ⟨⟨pre, i, suf', got, b, c, .inl ⟨p, rfl⟩⟩, ?_⟩⟩
        rw [b, c.readItems_append]
        have : wireOk (i.toProto J).size 4 = false := by simp [wireOk]; omega
        simp [bulkMessages, this, readItems]
      · intro e he; obtain ⟨st, x, y⟩ := hre e he; exact ⟨st, x, .inl y⟩
    · refine ⟨h1, h2, h3, ?_, ?_, ?_, fun x hx => (hcl x hx).elim, fun hx => (hro hx).elim, ?_, h10⟩
      · intro l hl; simp [s] at hl
      · intro l hl; simp [s] at hl
      · intro l hl
        simp only [s, BulkHandler.responded.injEq] at hl
        refine .inl ⟨a, _, hl.symm, .inr ⟨⟨pre, i, suf', got, b, c, .inr ⟨p, q, e', rfl⟩⟩, ?_⟩⟩
        rw [b, c.readItems_append]
        have : wireOk (i.toProto J).size 4 = true := by simp [wireOk, p]
        simp [bulkMessages, this, readItems, s', mapConversionResult]
      · intro e he; obtain ⟨st, x, y⟩ := hre e he; exact ⟨st, x, .inl y⟩
  | readEnd got hg hw he =>
    obtain ⟨a, pre, suf, b, c, d, e⟩ := h4 got hg
    have e := e (.inr he)
    rw [hw, (h3 he).2.2.1, (h3 he).2.1] at e
    have hsuf : suf = [] := by cases suf <;> simp_all
    subst hsuf
    refine ⟨h1, h2, h3, by simp, ?_, by simp, ?_, ?_, ?_, h10⟩
    · intro l hl; simp only [BulkHandler.calling.injEq] at hl; subst hl
      exact ⟨a, he, by rw [b]; simpa using c⟩
    · intro x hx; have := h7 x hx; rw [hg] at this; cases this
    · intro hx; have := h8 hx; rw [hg] at this; cases this
    · intro e he
      obtain ⟨st, x, y⟩ := h9 e he
      rw [hg] at y
      exact ⟨st, x, .inl (by simpa using y)⟩
  | readBroken got code hg hu =>
    refine ⟨h1, h2, h3, by simp, by simp, ?_, ?_, ?_, ?_, h10⟩
    · intro r hr; simp only [BulkHandler.responded.injEq] at hr
      exact .inl ⟨(h4 got hg).1, _, hr.symm, .inl hu⟩
    · intro x hx; have := h7 x hx; rw [hg] at this; cases this
    · intro hx; have := h8 hx; rw [hg] at this; cases this
    · intro e he
      obtain ⟨st, x, y⟩ := h9 e he
      exact ⟨st, x, .inl hu⟩
  | call l r hl =>
    obtain ⟨a, b, c⟩ := h5 l hl
    refine ⟨h1, h2, h3, by simp, by simp, ?_, ?_, ?_, ?_, h10⟩
    · intro x hx; simp only [BulkHandler.responded.injEq] at hx
      exact .inr ⟨l, r, by simp [a], hx.symm, b, c⟩
    · intro x hx; have := h7 x hx; rw [hl] at this; cases this
    · intro hx; have := h8 hx; rw [hl] at this; cases this
    · intro e he
      obtain ⟨st, x, y⟩ := h9 e he
      rw [hl] at y
      exact ⟨st, x, .inl (by simpa using y)⟩
  | respond r hc hr hu =>
    refine ⟨h1, h2, h3, h4, h5, h6, ?_, by simp, by simp, by simp⟩
    intro x hx; simp only [BulkCaller.gotResponse.injEq] at hx; subst hx; exact hr
  | noResponse code hc hu =>
    refine ⟨h1, h2, h3, h4, h5, h6, by simp, by simp, ?_, by simp⟩
    intro e he; simp only [BulkCaller.returned.injEq, Except.error.injEq] at he
    exact ⟨_, he.symm, .inl hu⟩
  | returnError s hc =>
    refine ⟨h1, h2, h3, h4, h5, h6, by simp, by simp, ?_, by simp⟩
    intro e he; simp only [BulkCaller.returned.injEq, Except.error.injEq] at he
    exact ⟨s, he.symm, .inr (h7 _ hc)⟩
  | returnOk hc =>
    have hr := h7 _ hc
    have hl : B.lastErr = false := by
      rcases h6 _ hr with ⟨_, st, hst, _⟩ | ⟨l, x, _, _, a, _⟩
      · cases hst
      · exact (h3 a).2.2.2
    refine ⟨h1, h2, h3, h4, h5, h6, by simp, ?_, ?_, by simp⟩
    · intro _; exact hr
    · intro e he; simp [hl] at he
  | break_ hu =>
    refine ⟨h1, h2, h3, h4, h5, ?_, h7, h8, ?_, by simp⟩
    · intro r hr
      rcases h6 r hr with ⟨a, s, b, _⟩ | h
      · exact .inl ⟨a, s, b, .inl rfl⟩
      · exact .inr h
    · intro e he
      obtain ⟨st, x, y⟩ := h9 e he
      exact ⟨st, x, .inl rfl⟩
  | cancel hc =>
    refine ⟨h1, h2, h3, h4, h5, ?_, by simp, by simp, by simp, by simp⟩
    intro r hr
    rcases h6 r hr with ⟨a, s, b, _⟩ | h
    · exact .inl ⟨a, s, b, .inl rfl⟩
    · exact .inr h

theorem Exec.inv {items : List BulkInsertItem} {window n : Nat} {B : BulkStream}
    (h : Exec letter J window false items n B) : Inv letter J items B := by
  induction h with
  | start => exact .start items
  | step _ st ih => exact ih.step st

/-- As long as the stream is intact and the handler reads, the transport keeps the body. -/
theorem Exec.body {items : List BulkInsertItem} {window n : Nat} {abort : Bool} {B : BulkStream}
    (h : Exec letter J window abort items n B) : B.up = true → (∃ got, B.handler = .reading got) → B.body = true := by
  induction h with
  | start => intro _ _; rfl
  | step _ st ih =>
    cases st with
    | dropBody hb hx =>
      intro hu ⟨got, hg⟩
      rcases hx with hx | ⟨r, hx⟩
      · simp [hx] at hu
      · simp [hx] at hg
    | read got m r hg hw => intro hu _; exact ih hu ⟨got, hg⟩
    | break_ => intro hu; simp at hu
    | cancel => intro hu; simp at hu
    | readEnd => intro _ ⟨_, h⟩; simp at h
    | readBroken => intro _ ⟨_, h⟩; simp at h
    | call => intro _ ⟨_, h⟩; simp at h
    | _ => exact ih

/-- As long as the call has not come to its end, something can happen other than a broken connection and the caller giving
up. -/
theorem Exec.progress {items : List BulkInsertItem} {window n : Nat} {B : BulkStream}
    (h : Exec letter J window false items n B) (hw : 0 < window) (hd : ¬ B.caller.Done) :
    ∃ B', Step letter J window false B B' ∧ B'.up = B.up ∧ B'.caller ≠ .cancelled := by
  have inv := h.inv
  cases hc : B.caller with
  | cancelled => simp [hc, BulkCaller.Done] at hd
  | returned r => simp [hc, BulkCaller.Done] at hd
  | gotResponse r =>
    cases r with
    | ok u => exact ⟨_, .returnOk B hc, rfl, by simp⟩
    | error st => exact ⟨_, .returnError B st hc, rfl, by simp⟩
  | waiting =>
    cases hu : B.up with
    | false => exact ⟨_, .noResponse B 14 hc hu, hu, by simp⟩
    | true =>
      have hnc : B.caller ≠ .cancelled := by simp [hc]
      cases hh : B.handler with
      | responded r => exact ⟨_, .respond B r hc hh hu, hu, by simp⟩
      | calling l => exact ⟨_, .call B l (.ok ()) hh, hu, hnc⟩
      | reading got =>
        have hb := h.body hu ⟨got, hh⟩
        cases hwi : B.wire with
        | cons m r => exact ⟨_, .read B got m r hh hwi, hu, hnc⟩
        | nil =>
          cases he : B.sentEnd with
          | true => exact ⟨_, .readEnd B got hh hwi he, hu, hnc⟩
          | false =>
            cases hq : B.queue with
            | cons m r => exact ⟨_, .take B m r hu hb hq (by simp [hwi, hw]), hu, hnc⟩
            | nil =>
              cases hs : B.sender with
              | failed => exact absurd hs (inv.body hb).2
              | ended => exact ⟨_, .finish B hu hb he hq hs, hu, hnc⟩
              | sending =>
                cases ht : B.todo with
                | nil => exact ⟨_, .sentAll B hs ht, hu, hnc⟩
                | cons i r => exact ⟨_, .send B i r hs ht hb (by simp [hq, bulkChannelCapacity]), hu, hnc⟩

/-! ### Every execution ends -/

/-- Ranks of the parties. -/
def senderRank : BulkSender → Nat
  | .sending => 2 | .failed => 1 | .ended => 0
def handlerRank : BulkHandler → Nat
  | .reading _ => 2 | .calling _ => 1 | .responded _ => 0
def callerRank : BulkCaller → Nat
  | .waiting => 2 | .gotResponse _ => 1 | _ => 0

/-- Every step lowers this. -/
def rank (B : BulkStream) : Nat :=
  3 * B.todo.length + 2 * B.queue.length + B.wire.length + senderRank B.sender + (if B.sentEnd then 0 else 1) +
    (if B.body then 1 else 0) + (if B.up then 1 else 0) + handlerRank B.handler + callerRank B.caller

theorem handlerRank_bulkNext (got : List BulkInsertItem) (m : PBulkInsertItem) :
    handlerRank (bulkNext letter J got m) ≤ 2 := by
  cases bulkNext letter J got m <;> simp [handlerRank]

theorem Step.rank_lt {window : Nat} {abort : Bool} {B B' : BulkStream} (st : Step letter J window abort B B') :
    B'.rank < B.rank := by
  cases st with
  | send i r hs ht hb hq => simp [rank, ht]; omega
  | sendFails i r hs ht hb => simp [rank, hs, senderRank]
  | record hs => simp [rank, hs, senderRank]
  | sentAll hs ht => simp [rank, hs, senderRank]
  | aborted _ hs => cases h : B.sender <;> simp_all [rank, senderRank]
  | take m r hu hb hq hw => simp [rank, hq]; omega
  | finish hu hb hn hq hs => simp [rank, hn]
  | dropBody hb hx => simp [rank, hb]; omega
  | read got m r hg hw =>
    have := handlerRank_bulkNext (letter := letter) (J := J) got m
    have h2 : handlerRank (.reading got) = 2 := rfl
    simp [rank, hw, hg]; omega
  | readEnd got hg hw he => simp [rank, hg, handlerRank]
  | readBroken got code hg hu => simp [rank, hg, handlerRank]
  | call l r hl => simp [rank, hl, handlerRank]
  | respond r hc hr hu => simp [rank, hc, callerRank]
  | noResponse code hc hu => simp [rank, hc, callerRank]
  | returnError s hc => simp [rank, hc, callerRank]
  | returnOk hc => simp [rank, hc, callerRank]
  | break_ hu => simp [rank, hu]
  | cancel hc => simp [rank, hc, callerRank]; split <;> omega

theorem Exec.rank_le {items : List BulkInsertItem} {window n : Nat} {abort : Bool} {B : BulkStream}
    (h : Exec letter J window abort items n B) : n + B.rank ≤ 3 * items.length + 9 := by
  induction h with
  | start => simp [rank, BulkStream.start, senderRank, handlerRank, callerRank]
  | step _ st ih => have := st.rank_lt; omega

end BulkStream
end IndraDB
