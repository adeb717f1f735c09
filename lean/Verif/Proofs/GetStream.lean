import Verif.Spec.GetStream
import Verif.Proofs.Server
/-
Invariants of `GetStream`.
-/
namespace IndraDB
variable {letter : Char → Bool} {J : JsonText}

/-- What reading a stream gives, if the messages before `suf` have given `got`. -/
theorem readOutputs_append {pre : List ReplyItem} {got : List Output} (h : readOutputs letter J pre = .ok got)
    (suf : List ReplyItem) : readOutputs letter J (pre ++ suf) =
      (match readOutputs letter J suf with | .error e => .error e | .ok l => .ok (got ++ l)) := by
  induction pre generalizing got with
  | nil =>
    cases h
    simp only [List.nil_append]
    cases readOutputs letter J suf <;> rfl
  | cons x r ih =>
    cases x with
    | error st => cases h
    | ok m =>
      simp only [readOutputs, List.cons_append] at h ⊢
      split at h
      · rename_i hw
        rw [if_pos hw]
        cases hc : m.conv letter J with
        | error e => rw [hc] at h; cases h
        | ok o =>
          rw [hc] at h
          cases hr : readOutputs letter J r with
          | error e => rw [hr] at h; cases h
          | ok l =>
            rw [hr] at h
            cases h
            simp only [ih hr]
            cases readOutputs letter J suf <;> rfl
      · cases h

theorem getNext_cases (got : List Output) (x : ReplyItem) :
    (∃ o, getNext letter J got x = .reading (got ++ [o]) ∧ readOutputs letter J [x] = .ok [o]) ∨
    (∃ e, getNext letter J got x = .returned (.error e) ∧ ∀ r, readOutputs letter J (x :: r) = .error e) := by
  cases x with
  | error st => exact .inr ⟨_, rfl, fun _ => rfl⟩
  | ok m =>
    by_cases hw : wireOk m.size 4 = true
    · cases hc : m.conv letter J with
      | ok o => exact .inl ⟨o, by simp [getNext, hw, hc], by simp [readOutputs, hw, hc]⟩
      | error e => exact .inr ⟨.conversion e, by simp [getNext, hw, hc], fun r => by simp [readOutputs, hw, hc]⟩
    · exact .inr ⟨.grpc .undecodable, by simp [getNext, hw], fun r => by simp [readOutputs, hw]⟩

theorem readOutputs_arrive (os l : List Output) :
    readOutputs letter J (os.map (fun o => .ok (o.toProto J))) = .ok l ↔ OutputsArrive letter J os l := by
  induction os generalizing l with
  | nil =>
    constructor
    · intro h; cases h; exact .nil
    · intro h; cases h; rfl
  | cons o r ih =>
    simp only [List.map_cons, readOutputs]
    constructor
    · intro h
      split at h
      · rename_i hw
        simp only [wireOk, Bool.and_eq_true, decide_eq_true_eq] at hw
        cases hc : (o.toProto J).conv letter J with
        | error e => rw [hc] at h; cases h
        | ok o' =>
          rw [hc] at h
          cases hr : readOutputs letter J (r.map (fun o => .ok (o.toProto J))) with
          | error e => rw [hr] at h; cases h
          | ok l' => rw [hr] at h; cases h; exact .cons hw.1 ((POutput.conv_iff letter J _ _).1 hc) ((ih l').1 hr)
      · cases h
    · intro h
      cases h with
      | cons h1 h2 h3 =>
        have hw : wireOk (o.toProto J).size 4 = true := by simp [wireOk, h1]
        rw [if_pos hw, (POutput.conv_iff letter J _ _).2 h2, (ih _).2 h3]

theorem readOutputs_rejected (os : List Output) (e : ClientError)
    (h : readOutputs letter J (os.map (fun o => .ok (o.toProto J))) = .error e) : OutputRejected letter J os e := by
  induction os with
  | nil => cases h
  | cons o r ih =>
    simp only [List.map_cons, readOutputs] at h
    split at h
    · cases hc : (o.toProto J).conv letter J with
      | error c =>
        rw [hc] at h; cases h
        refine ⟨o, List.mem_cons_self, .inr ⟨?_, c, rfl⟩⟩
        rintro ⟨o', ho⟩
        rw [(POutput.conv_iff letter J _ _).2 ho] at hc; cases hc
      | ok o' =>
        rw [hc] at h
        cases hr : readOutputs letter J (r.map (fun o => .ok (o.toProto J))) with
        | ok l => rw [hr] at h; cases h
        | error e' =>
          rw [hr] at h; cases h
          obtain ⟨x, hx, hy⟩ := ih hr
          exact ⟨x, List.mem_cons_of_mem _ hx, hy⟩
    · rename_i hw
      cases h
      refine ⟨o, List.mem_cons_self, .inl ⟨?_, rfl⟩⟩
      simp only [wireOk, Bool.and_eq_true, decide_eq_true_eq, not_and] at hw
      omega

namespace GetStream

/-- The stream of the outcome, or nothing as long as there is none. -/
def stream (J : JsonText) (G : GetStream) : List ReplyItem :=
  match G.outcome with
  | none => []
  | some r => outcomeStream J r

/-- What holds throughout. -/
structure Inv (letter : Char → Bool) (J : JsonText) (G : GetStream) : Prop where
  evaluating : G.task = .evaluating ↔ G.outcome = none
  ended : G.task = .ended → G.todo = []
  fresh : G.outcome = none → G.todo = [] ∧ G.queue = [] ∧ G.wire = []
  sentEnd : G.sentEnd = true → G.task = .ended ∧ G.queue = []
  reading : ∀ got, G.caller = .reading got → ∃ pre suf, G.stream J = pre ++ suf ∧ readOutputs letter J pre = .ok got ∧
    G.wire <+: suf ∧ (G.body = true ∨ G.sentEnd = true → G.wire ++ G.queue ++ G.todo = suf)
  returnedOk : ∀ l, G.caller = .returned (.ok l) → G.outcome ≠ none ∧ readOutputs letter J (G.stream J) = .ok l
  returnedError : ∀ e, G.caller = .returned (.error e) → (∃ code, e = .grpc (.other code) ∧ G.up = false) ∨
    (G.outcome ≠ none ∧ readOutputs letter J (G.stream J) = .error e)

theorem Inv.start : Inv letter J start := by
  constructor <;> simp [GetStream.start, stream, readOutputs]

theorem Inv.step {window : Nat} {G G' : GetStream} (h : Inv letter J G) (st : Step letter J window G G') :
    Inv letter J G' := by
  obtain ⟨h1, h2, h3, h4, h5, h6, h7⟩ := h
  cases st with
  | eval r ht =>
    have ho := h1.1 ht
    obtain ⟨a, b, c⟩ := h3 ho
    have hnr : ∀ l, G.caller ≠ .returned (.ok l) := fun l hl => (h6 l hl).1 ho
    have he : ∀ e, G.caller = .returned (.error e) → ∃ code, e = .grpc (.other code) ∧ G.up = false := fun e he =>
      (h7 e he).resolve_right (fun x => x.1 ho)
    refine ⟨by simp, by simp, by simp, ?_, ?_, fun l hl => absurd hl (hnr l), fun e h => .inl (he e h)⟩
    · intro hs; simp [(h4 hs).1] at ht
    · intro got hg
      obtain ⟨pre, suf, hp, hr, hw, _⟩ := h5 got hg
      have : pre = [] ∧ suf = [] := by
        have : G.stream J = [] := by simp [stream, ho]
        rw [this] at hp
        simpa using hp.symm
      obtain ⟨rfl, rfl⟩ := this
      refine ⟨[], outcomeStream J r, rfl, hr, by simp [c], ?_⟩
      intro _; simp [b, c]
  | send x r ht htd hb hq =>
    refine ⟨h1, ?_, ?_, ?_, ?_, h6, h7⟩
    · intro h; simp [ht] at h
    · intro h; have := (h3 h).1; simp [htd] at this
    · intro h; have := (h4 h).1; simp [ht] at this
    · intro got hg
      obtain ⟨pre, suf, hp, hr, hw, he⟩ := h5 got hg
      refine ⟨pre, suf, hp, hr, hw, fun _ => ?_⟩
      rw [← he (.inl hb), htd]; simp
  | sendFails x r ht htd hb =>
    refine ⟨h1, ?_, ?_, h4, ?_, h6, h7⟩
    · intro h; simp [ht] at h
    · intro h; have := (h3 h).1; simp [htd] at this
    · intro got hg
      obtain ⟨pre, suf, hp, hr, hw, he⟩ := h5 got hg
      refine ⟨pre, suf, hp, hr, hw, ?_⟩
      rintro (hx | hx)
      · simp [hb] at hx
      · have := (h4 hx).1; simp [ht] at this
  | sentAll ht htd =>
    refine ⟨?_, fun _ => htd, h3, ?_, h5, h6, h7⟩
    · constructor
      · intro h; cases h
      · intro h; have := h1.2 h; simp [ht] at this
    · intro h; exact ⟨rfl, (h4 h).2⟩
  | take x r hu hb hq hw =>
    refine ⟨h1, h2, ?_, ?_, ?_, h6, h7⟩
    · intro h; have := (h3 h).2.1; simp [hq] at this
    · intro h; have := (h4 h).2; simp [hq] at this
    · intro got hg
      obtain ⟨pre, suf, hp, hr, hw, he⟩ := h5 got hg
      have he := he (.inl hb)
      refine ⟨pre, suf, hp, hr, ⟨r ++ G.todo, by rw [← he, hq]; simp⟩, fun _ => by rw [← he, hq]; simp⟩
  | finish hu hb hn hq ht =>
    refine ⟨h1, h2, h3, fun _ => ⟨ht, hq⟩, ?_, h6, h7⟩
    intro got hg
    obtain ⟨pre, suf, hp, hr, hw, he⟩ := h5 got hg
    exact ⟨pre, suf, hp, hr, hw, fun _ => he (.inl hb)⟩
  | dropBody hb hx =>
    refine ⟨h1, h2, ?_, ?_, ?_, h6, h7⟩
    · intro h; exact ⟨(h3 h).1, rfl, (h3 h).2.2⟩
    · intro h; exact ⟨(h4 h).1, rfl⟩
    · intro got hg
      obtain ⟨pre, suf, hp, hr, hw, he⟩ := h5 got hg
      refine ⟨pre, suf, hp, hr, hw, ?_⟩
      rintro (h | h)
      · cases h
      · have := he (.inr h); rw [(h4 h).2] at this; exact this
  | read got x r hg hw =>
    obtain ⟨pre, suf, hp, hr, hpre, he⟩ := h5 got hg
    have hon : G.outcome ≠ none := by
      intro h; have := (h3 h).2.2; simp [hw] at this
    obtain ⟨suf', hsuf⟩ : ∃ suf', suf = x :: suf' := by
      obtain ⟨t, ht⟩ := hpre; rw [hw] at ht; exact ⟨r ++ t, ht.symm⟩
    subst hsuf
    rcases getNext_cases (letter := letter) (J := J) got x with ⟨o, a, c⟩ | ⟨e, a, c⟩
    · refine ⟨h1, h2, fun h => absurd h hon, h4, ?_, ?_, ?_⟩
      · intro got' hg'
        simp only [a, GetCaller.reading.injEq] at hg'
        subst hg'
        refine ⟨pre ++ [x], suf', by show G.stream J = _; rw [hp]; simp, ?_, ?_, ?_⟩
        · rw [readOutputs_append hr, c]
        · rw [hw] at hpre; simpa using hpre
        · intro h; have := he h; rw [hw] at this; simpa using this
      · intro l hl; simp [a] at hl
      · intro e he; simp [a] at he
    · refine ⟨h1, h2, fun h => absurd h hon, h4, ?_, ?_, ?_⟩
      · intro l hl; simp [a] at hl
      · intro l hl; simp [a] at hl
      · intro e' he'
        simp only [a, GetCaller.returned.injEq, Except.error.injEq] at he'
        subst he'
        refine .inr ⟨hon, ?_⟩
        show readOutputs letter J (G.stream J) = _
        rw [hp, readOutputs_append hr, c]
  | readEnd got hg hw hs =>
    obtain ⟨pre, suf, hp, hr, hpre, he⟩ := h5 got hg
    obtain ⟨a, b⟩ := h4 hs
    have he := he (.inr hs)
    rw [hw, b, h2 a] at he
    simp only [List.append_nil] at he
    subst he
    refine ⟨h1, h2, h3, h4, by simp, ?_, by simp⟩
    intro l hl
    simp only [GetCaller.returned.injEq, Except.ok.injEq] at hl
    subst hl
    refine ⟨fun h => by have := h1.2 h; simp [a] at this, ?_⟩
    show readOutputs letter J (G.stream J) = _
    rw [hp, List.append_nil, hr]
  | readBroken got code hg hu =>
    refine ⟨h1, h2, h3, h4, by simp, by simp, ?_⟩
    intro e he
    simp only [GetCaller.returned.injEq, Except.error.injEq] at he
    exact .inl ⟨code, he.symm, hu⟩
  | break_ hu =>
    refine ⟨h1, h2, h3, h4, h5, h6, ?_⟩
    intro e he
    rcases h7 e he with ⟨code, a, b⟩ | h
    · exact .inl ⟨code, a, rfl⟩
    · exact .inr h
  | cancel got hg => exact ⟨h1, h2, h3, h4, by simp, by simp, by simp⟩

theorem Exec.inv {window n : Nat} {G : GetStream} (h : Exec letter J window n G) : Inv letter J G := by
  induction h with
  | start => exact .start
  | step _ st ih => exact ih.step st

/-- As long as the connection is intact and the caller reads, the transport keeps the body. -/
theorem Exec.body {window n : Nat} {G : GetStream} (h : Exec letter J window n G) :
    G.up = true → (∃ got, G.caller = .reading got) → G.body = true := by
  induction h with
  | start => intro _ _; rfl
  | step _ st ih =>
    cases st with
    | dropBody hb hx =>
      rintro hu ⟨got, hg⟩
      rcases hx with hx | hx
      · simp [hx] at hu
      · exact absurd hg (hx got)
    | read got x r hg hw => intro hu _; exact ih hu ⟨got, hg⟩
    | break_ => intro hu; simp at hu
    | cancel => intro _ ⟨_, h⟩; simp at h
    | readEnd => intro _ ⟨_, h⟩; simp at h
    | readBroken => intro _ ⟨_, h⟩; simp at h
    | _ => exact ih

theorem Exec.progress {window n : Nat} {G : GetStream} (h : Exec letter J window n G) (hw : 0 < window)
    (hd : ¬ G.caller.Done) : ∃ G', Step letter J window G G' ∧ G'.up = G.up ∧ G'.caller ≠ .cancelled := by
  have inv := h.inv
  cases hc : G.caller with
  | cancelled => simp [hc, GetCaller.Done] at hd
  | returned r => simp [hc, GetCaller.Done] at hd
  | reading got =>
    have hnc : G.caller ≠ .cancelled := by simp [hc]
    cases hu : G.up with
    | false => exact ⟨_, .readBroken G got 14 hc hu, hu, by simp⟩
    | true =>
      have hb := h.body hu ⟨got, hc⟩
      cases hwi : G.wire with
      | cons x r =>
        refine ⟨_, .read G got x r hc hwi, hu, ?_⟩
        rcases getNext_cases (letter := letter) (J := J) got x with ⟨o, a, _⟩ | ⟨e, a, _⟩ <;> simp [a]
      | nil =>
        cases hs : G.sentEnd with
        | true => exact ⟨_, .readEnd G got hc hwi hs, hu, by simp⟩
        | false =>
          cases hq : G.queue with
          | cons x r => exact ⟨_, .take G x r hu hb hq (by simp [hwi, hw]), hu, hnc⟩
          | nil =>
            cases ht : G.task with
            | evaluating => exact ⟨_, .eval G (.ok []) ht, hu, hnc⟩
            | ended => exact ⟨_, .finish G hu hb hs hq ht, hu, hnc⟩
            | sending =>
              cases htd : G.todo with
              | nil => exact ⟨_, .sentAll G ht htd, hu, hnc⟩
              | cons x r => exact ⟨_, .send G x r ht htd hb (by simp [hq, channelCapacity]), hu, hnc⟩

/-- Ranks. -/
def taskRank : GetTask → Nat
  | .evaluating => 2 | .sending => 1 | .ended => 0
def callerRank : GetCaller → Nat
  | .reading _ => 1 | _ => 0

/-- Every step lowers this, except that evaluating the query adds what is to be sent. -/
def rank (G : GetStream) : Nat :=
  3 * G.todo.length + 2 * G.queue.length + G.wire.length + taskRank G.task + (if G.sentEnd then 0 else 1) +
    (if G.body then 1 else 0) + (if G.up then 1 else 0) + callerRank G.caller

theorem Exec.rank_le {window n : Nat} {G : GetStream} (h : Exec letter J window n G) :
    n + G.rank ≤ 3 * (G.stream J).length + 6 := by
  induction h with
  | start => simp [rank, GetStream.start, taskRank, callerRank]
  | @step n G G' hx st ih =>
    have inv := hx.inv
    cases st with
    | eval r ht =>
      have ho := inv.evaluating.1 ht
      have h3 := inv.fresh ho
      have hr : ∀ x, taskRank x ≤ 2 := fun x => by cases x <;> simp [taskRank]
      simp only [rank, stream, ho, h3.1, ht, taskRank, List.length_nil] at ih ⊢
      omega
    | send x r ht htd hb hq => simp [rank, stream, htd] at ih ⊢; omega
    | sendFails x r ht htd hb => simp [rank, stream, htd] at ih ⊢; omega
    | sentAll ht htd => simp [rank, stream, ht, taskRank] at ih ⊢; omega
    | take x r hu hb hq hw => simp [rank, stream, hq] at ih ⊢; omega
    | finish hu hb hn hq ht => simp [rank, stream, hn] at ih ⊢; omega
    | dropBody hb hx => simp [rank, stream, hb] at ih ⊢; omega
    | read got x r hg hw =>
      have : callerRank (getNext letter J got x) ≤ 1 := by
        cases getNext letter J got x <;> simp [callerRank]
      have h2 : callerRank (.reading got) = 1 := rfl
      simp [rank, stream, hw, hg] at ih ⊢; omega
    | readEnd got hg hw hs => simp [rank, stream, hg, callerRank] at ih ⊢; omega
    | readBroken got code hg hu => simp [rank, stream, hg, callerRank] at ih ⊢; omega
    | break_ hu => simp [rank, stream, hu] at ih ⊢; omega
    | cancel got hg => simp [rank, stream, hg, callerRank] at ih ⊢; omega

end GetStream
end IndraDB
