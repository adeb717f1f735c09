import Verif.Model.PluginMap
/-
Invariant of the thread pool mapping.
-/
namespace IndraDB
namespace PluginMap

/-- The vertices among the items. -/
def oks : List (Except Error Vertex) → List Vertex
  | [] => []
  | .ok v :: r => v :: oks r
  | .error _ :: r => oks r

theorem oks_append (a b : List (Except Error Vertex)) : oks (a ++ b) = oks a ++ oks b := by
  induction a with
  | nil => rfl
  | cons x r ih => cases x <;> simp [oks, ih]

/-- The vertices being mapped. -/
def mappings : List Job → List Vertex
  | [] => []
  | .mapping v :: r => v :: mappings r
  | .failed _ _ :: r => mappings r

theorem mappings_append (a b : List Job) : mappings (a ++ b) = mappings a ++ mappings b := by
  induction a with
  | nil => rfl
  | cons x r ih => cases x <;> simp [mappings, ih]

/-- The item in the caller's hands. -/
def held : Phase → List (Except Error Vertex)
  | .holding x => [x]
  | _ => []

/-- Has the caller left the loop? -/
def Phase.left : Phase → Bool
  | .joining | .returned _ => true
  | _ => false

structure Inv (n : Nat) (items : List (Except Error Vertex)) (s : St) : Prop where
  /-- the items consumed so far (`gone`), then the one in hand, then perhaps one dropped by `break`, then the rest -/
  split : ∃ gone drop, items = gone ++ held s.phase ++ drop ++ s.todo ∧
    (oks gone).Perm (s.queue ++ mappings s.running ++ s.log.map Prod.fst) ∧
    (∀ e, .error e ∈ gone → s.firstErr.isSome = true) ∧
    (s.firstErr = none ∨ s.phase.left = false → drop = []) ∧
    (s.phase.left = true → s.firstErr = none → s.todo = [])
  errs : ∀ v e, (v, Outcome.err e) ∈ s.log → s.firstErr.isSome = true ∨ ∃ v e, Job.failed v e ∈ s.running
  failed : ∀ v e, Job.failed v e ∈ s.running → (v, Outcome.err e) ∈ s.log
  cause : ∀ e, s.firstErr = some e → (∃ v, (v, Outcome.err e) ∈ s.log) ∨ ∃ x, .error x ∈ items ∧ e = .indraDB x
  room : s.running.length ≤ n
  result : ∀ r, s.phase = .returned r →
    s.queue = [] ∧ s.running = [] ∧ r = match s.firstErr with | some e => .error e | none => .ok ()

theorem Inv.init (n : Nat) (items : List (Except Error Vertex)) : Inv n items (St.init items) where
  split := ⟨[], [], by simp [St.init, held, oks, mappings, Phase.left]⟩
  errs := by simp [St.init]
  failed := by simp [St.init]
  cause := by simp [St.init]
  room := by simp [St.init]
  result := by simp [St.init]

theorem record_isSome (o : Option PluginError) (e : PluginError) : (record o e).isSome = true := by cases o <;> rfl
theorem record_ne (o : Option PluginError) (e : PluginError) : record o e ≠ none := by cases o <;> simp [record]

theorem record_eq {o : Option PluginError} {e x : PluginError} (h : record o e = some x) : o = some x ∨ x = e := by
  cases o with
  | none => right; simp [record] at h; exact h.symm
  | some y => left; simpa [record] using h

theorem perm_pull {α : Type} (q a b l : List α) (v : α) : (q ++ (a ++ v :: b) ++ l).Perm (q ++ (a ++ b) ++ (l ++ [v])) := by
  have h1 : (q ++ (a ++ v :: b) ++ l).Perm (v :: (q ++ (a ++ b) ++ l)) := by
    have : q ++ (a ++ v :: b) ++ l = (q ++ a) ++ v :: (b ++ l) := by simp
    rw [this]
    refine List.perm_middle.trans ?_
    simp
  refine h1.trans ?_
  have h2 := (List.perm_append_singleton v (q ++ (a ++ b) ++ l)).symm
  rwa [List.append_assoc _ l] at h2

theorem Inv.step {n : Nat} {items : List (Except Error Vertex)} {s s' : St} (h : Inv n items s) (st : Step n s s') :
    Inv n items s' := by
  obtain ⟨gone, drop, hsplit, hperm, hgone, hdrop, hleft⟩ := h.split
  cases st with
  | @next x rest hp ht hc =>
    have hd := hdrop (Or.inr (by rw [hp]; rfl))
    subst hd
    refine ⟨⟨gone, [], ?_, hperm, hgone, fun _ => rfl, by simp [Phase.left]⟩, h.errs, h.failed, h.cause, h.room, by simp⟩
    rw [hsplit, hp, ht]; simp [held]
  | @brk x rest hp ht h1 h2 =>
    have hd := hdrop (Or.inr (by rw [hp]; rfl))
    subst hd
    refine ⟨⟨gone, [x], ?_, hperm, hgone, ?_, ?_⟩, h.errs, h.failed, h.cause, h.room, by simp⟩
    · rw [hsplit, hp, ht]; simp [held]
    · rintro (h | h)
      · simp only at h; rw [h] at h2; simp at h2
      · simp [Phase.left] at h
    · intro _ h; simp only at h; rw [h] at h2; simp at h2
  | done hp ht =>
    refine ⟨⟨gone, drop, ?_, hperm, hgone, fun _ => hdrop (Or.inr (by rw [hp]; rfl)), fun _ _ => ht⟩, h.errs, h.failed,
      h.cause, h.room, by simp⟩
    rw [hsplit, hp]; simp [held]
  | @push v hp =>
    have hd := hdrop (Or.inr (by rw [hp]; rfl))
    subst hd
    refine ⟨⟨gone ++ [.ok v], [], ?_, ?_, ?_, fun _ => rfl, by simp [Phase.left]⟩, h.errs, h.failed, h.cause, h.room, by simp⟩
    · rw [hsplit, hp]; simp [held]
    · rw [oks_append]
      show (oks gone ++ [v]).Perm _
      refine (hperm.append_right [v]).trans ?_
      simp only [List.append_assoc]
      refine List.Perm.append_left _ ?_
      rw [← List.append_assoc]
      exact List.perm_append_singleton v _
    · intro e he
      simp only [List.mem_append, List.mem_singleton, reduceCtorEq, or_false] at he
      exact hgone e he
  | @itemError e hp =>
    have hd := hdrop (Or.inr (by rw [hp]; rfl))
    subst hd
    refine ⟨⟨gone ++ [.error e], [], ?_, ?_, fun _ _ => record_isSome _ _, fun _ => rfl, by simp [Phase.left]⟩,
      fun _ _ _ => Or.inl (record_isSome _ _), h.failed, ?_, h.room, by simp⟩
    · rw [hsplit, hp]; simp [held]
    · rw [oks_append]; simpa [oks] using hperm
    · intro x hx
      rcases record_eq hx with hx | rfl
      · exact h.cause x hx
      · right; refine ⟨e, ?_, rfl⟩
        rw [hsplit, hp]; simp [held]
  | @start v rest hq hl =>
    refine ⟨⟨gone, drop, hsplit, ?_, hgone, hdrop, hleft⟩, ?_, ?_, h.cause, ?_, ?_⟩
    · refine hperm.trans ?_
      rw [hq, mappings_append]
      simp only [mappings, List.cons_append, List.append_assoc]
      have := (List.perm_middle (l₁ := rest ++ mappings s.running) (a := v) (l₂ := s.log.map Prod.fst)).symm
      simpa using this
    · intro v' e he
      rcases h.errs v' e he with h | ⟨a, b, hab⟩
      · exact Or.inl h
      · exact Or.inr ⟨a, b, List.mem_append_left _ hab⟩
    · intro v' e he
      rcases List.mem_append.1 he with he | he
      · exact h.failed v' e he
      · simp at he
    · simp only [List.length_append, List.length_singleton]; omega
    · intro r hr
      have := (h.result r hr).1
      rw [hq] at this; cases this
  | @ok v a b hr =>
    refine ⟨⟨gone, drop, hsplit, ?_, hgone, hdrop, hleft⟩, ?_, ?_, ?_, ?_, ?_⟩
    · refine hperm.trans ?_
      rw [hr]
      simp only [mappings_append, mappings, List.map_append, List.map_cons, List.map_nil]
      exact perm_pull _ _ _ _ _
    · intro v' e he
      simp only [List.mem_append, List.mem_singleton, Prod.mk.injEq, reduceCtorEq, and_false, or_false] at he
      rcases h.errs v' e he with h | ⟨x, y, hxy⟩
      · exact Or.inl h
      · rw [hr] at hxy
        exact Or.inr ⟨x, y, by simpa using hxy⟩
    · intro v' e he
      refine List.mem_append_left _ (h.failed v' e ?_)
      rw [hr]
      rcases List.mem_append.1 he with he | he
      · exact List.mem_append_left _ he
      · exact List.mem_append_right _ (List.mem_cons_of_mem _ he)
    · intro e he
      rcases h.cause e he with ⟨v, hv⟩ | hx
      · exact Or.inl ⟨v, List.mem_append_left _ hv⟩
      · exact Or.inr hx
    · have := h.room; rw [hr] at this; simp only [List.length_append, List.length_cons] at this ⊢; omega
    · intro r hph
      have := (h.result r hph).2.1
      rw [hr] at this; simp at this
  | @err v e a b hr =>
    refine ⟨⟨gone, drop, hsplit, ?_, hgone, hdrop, hleft⟩, ?_, ?_, ?_, ?_, ?_⟩
    · refine hperm.trans ?_
      rw [hr]
      simp only [mappings_append, mappings, List.map_append, List.map_cons, List.map_nil]
      exact perm_pull _ _ _ _ _
    · intro v' e' he
      exact Or.inr ⟨v, e, by simp⟩
    · intro v' e' he
      simp only [List.mem_append, List.mem_cons, Job.failed.injEq] at he
      rcases he with he | ⟨rfl, rfl⟩ | he
      · exact List.mem_append_left _ (h.failed v' e' (by rw [hr]; exact List.mem_append_left _ he))
      · simp
      · exact List.mem_append_left _ (h.failed v' e' (by rw [hr]; exact List.mem_append_right _ (List.mem_cons_of_mem _ he)))
    · intro e he
      rcases h.cause e he with ⟨v, hv⟩ | hx
      · exact Or.inl ⟨v, List.mem_append_left _ hv⟩
      · exact Or.inr hx
    · have := h.room; rw [hr] at this; simp only [List.length_append, List.length_cons] at this ⊢; omega
    · intro r hph
      have := (h.result r hph).2.1
      rw [hr] at this; simp at this
  | @recordErr v e a b hr =>
    refine ⟨⟨gone, drop, hsplit, ?_, fun _ _ => record_isSome _ _, ?_, ?_⟩, fun _ _ _ => Or.inl (record_isSome _ _), ?_, ?_, ?_, ?_⟩
    · have := hperm
      rw [hr] at this
      simpa [mappings_append, mappings] using this
    · rintro (h | h)
      · exact absurd h (record_ne _ _)
      · exact hdrop (Or.inr h)
    · intro _ h; exact absurd h (record_ne _ _)
    · intro v' e' he
      refine h.failed v' e' ?_
      rw [hr]
      rcases List.mem_append.1 he with he | he
      · exact List.mem_append_left _ he
      · exact List.mem_append_right _ (List.mem_cons_of_mem _ he)
    · intro x hx
      rcases record_eq hx with hx | rfl
      · exact h.cause x hx
      · exact Or.inl ⟨v, h.failed v _ (by rw [hr]; simp)⟩
    · have := h.room; rw [hr] at this; simp only [List.length_append, List.length_cons] at this ⊢; omega
    · intro r hph
      have := (h.result r hph).2.1
      rw [hr] at this; simp at this
  | @panic v a b hr =>
    refine ⟨⟨gone, drop, hsplit, ?_, hgone, hdrop, hleft⟩, ?_, ?_, ?_, ?_, ?_⟩
    · refine hperm.trans ?_
      rw [hr]
      simp only [mappings_append, mappings, List.map_append, List.map_cons, List.map_nil]
      exact perm_pull _ _ _ _ _
    · intro v' e he
      simp only [List.mem_append, List.mem_singleton, Prod.mk.injEq, reduceCtorEq, and_false, or_false] at he
      rcases h.errs v' e he with h | ⟨x, y, hxy⟩
      · exact Or.inl h
      · rw [hr] at hxy
        exact Or.inr ⟨x, y, by simpa using hxy⟩
    · intro v' e he
      refine List.mem_append_left _ (h.failed v' e ?_)
      rw [hr]
      rcases List.mem_append.1 he with he | he
      · exact List.mem_append_left _ he
      · exact List.mem_append_right _ (List.mem_cons_of_mem _ he)
    · intro e he
      rcases h.cause e he with ⟨v, hv⟩ | hx
      · exact Or.inl ⟨v, List.mem_append_left _ hv⟩
      · exact Or.inr hx
    · have := h.room; rw [hr] at this; simp only [List.length_append, List.length_cons] at this ⊢; omega
    · intro r hph
      have := (h.result r hph).2.1
      rw [hr] at this; simp at this
  | join hp hq hr =>
    refine ⟨⟨gone, drop, ?_, hperm, hgone, ?_, ?_⟩, h.errs, h.failed, h.cause, h.room, ?_⟩
    · rw [hsplit, hp]; simp [held]
    · rintro (h | h)
      · exact hdrop (Or.inl h)
      · simp [Phase.left] at h
    · intro _ h; exact hleft (by rw [hp]; rfl) h
    · intro r hr'
      simp only [Phase.returned.injEq] at hr'
      exact ⟨hq, hr, hr'.symm⟩

theorem Inv.steps {n : Nat} {items : List (Except Error Vertex)} {s : St} (st : Steps n (St.init items) s) :
    Inv n items s := by
  induction st with
  | refl => exact Inv.init n items
  | tail _ st ih => exact ih.step st

/-- Until the call has returned, something can happen. -/
theorem progress {n : Nat} (hn : 0 < n) {s : St}
    (hr : ∀ r, s.phase ≠ .returned r) : ∃ s', Step n s s' := by
  cases hp : s.phase with
  | loop =>
    cases ht : s.todo with
    | nil => exact ⟨_, .done hp ht⟩
    | cons x rest =>
      by_cases hc : (s.i + 1) % 1000 = 0 ∧ s.firstErr.isSome = true
      · exact ⟨_, .brk hp ht hc.1 hc.2⟩
      · exact ⟨_, .next hp ht hc⟩
  | holding x =>
    cases x with
    | ok v => exact ⟨_, .push hp⟩
    | error e => exact ⟨_, .itemError hp⟩
  | returned r => exact absurd hp (hr r)
  | joining =>
    cases hrun : s.running with
    | cons j b =>
      cases j with
      | mapping v => exact ⟨_, .ok (a := []) hrun⟩
      | failed v e => exact ⟨_, .recordErr (a := []) hrun⟩
    | nil =>
      cases hq : s.queue with
      | nil => exact ⟨_, .join hp hq hrun⟩
      | cons v rest => exact ⟨_, .start hq (by rw [hrun]; exact hn)⟩

/-- Work left. -/
def jobWork : List Job → Nat
  | [] => 0
  | .mapping _ :: r => 2 + jobWork r
  | .failed _ _ :: r => 1 + jobWork r

theorem jobWork_append (a b : List Job) : jobWork (a ++ b) = jobWork a + jobWork b := by
  induction a with
  | nil => simp [jobWork]
  | cons x r ih => cases x <;> simp [jobWork, ih] <;> omega

/-- Work left for the caller. -/
def phaseWork : Phase → Nat
  | .loop => 2
  | .holding _ => 6
  | .joining => 1
  | .returned _ => 0

/-- A bound on the number of steps left. -/
def work (s : St) : Nat := 5 * s.todo.length + phaseWork s.phase + 3 * s.queue.length + jobWork s.running

theorem work_decreases {n : Nat} {s s' : St} (st : Step n s s') : work s' < work s := by
  cases st <;> simp_all [work, phaseWork, jobWork, jobWork_append] <;> omega

end PluginMap
end IndraDB
