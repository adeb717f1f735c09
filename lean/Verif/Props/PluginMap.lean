import Verif.Proofs.PluginMap
import Verif.Props.Rocks
/-
C46: mapping over all vertices on a thread pool.
-/
namespace IndraDB
open PluginMap

/-- What is true of C46, for every number of threads, every list of vertices, every mapper and every schedule. If `map`
returns `Ok`, the mapper ran exactly once for every vertex, and none of the runs returned an error. If a run returned an
error, `map` returns an error. An error that `map` returns was returned by a run or by the datastore. In any case no
vertex is mapped more often than the datastore listed it. Missing: a run may have panicked, see `C46_refuted`. -/
theorem C46_map_partial (numThreads : Nat) (all : Except Error (List (Except Error Vertex)))
    (log : List (Vertex × Outcome)) (r : Except PluginError Unit) (h : MapCall numThreads all log r) :
    (r = .ok () → ∃ vs : List Vertex, all = .ok (vs.map .ok) ∧ (log.map Prod.fst).Perm vs ∧
      (∀ p ∈ log, p.2 = .ok ∨ p.2 = .panic) ∧ ((∀ p ∈ log, p.2 ≠ .panic) → ∀ p ∈ log, p.2 = .ok)) ∧
    (∀ v e, (v, Outcome.err e) ∈ log → ∃ e', r = .error e') ∧
    (∀ e, r = .error e → (∃ v, (v, Outcome.err e) ∈ log) ∨
      (∃ x, e = .indraDB x ∧ (all = .error x ∨ ∃ items, all = .ok items ∧ .error x ∈ items))) ∧
    (∀ items, all = .ok items → ∀ v, (log.map Prod.fst).count v ≤ (items.filterMap Except.toOption).count v) := by
  cases h with
  | @noIterator e => simp
  | @ran items s _ st hp =>
    have hi := Inv.steps st
    obtain ⟨hq, hr, hres⟩ := hi.result r hp
    obtain ⟨gone, drop, hsplit, hperm, hgone, hdrop, hleft⟩ := hi.split
    rw [hq, hr] at hperm
    simp only [mappings, List.nil_append] at hperm
    have hfail : ∀ v e, (v, Outcome.err e) ∈ s.log → ∃ e', s.firstErr = some e' := by
      intro v e he
      rcases hi.errs v e he with h | ⟨a, b, h⟩
      · exact Option.isSome_iff_exists.1 h
      · rw [hr] at h; cases h
    refine ⟨?_, ?_, ?_, ?_⟩
    · rintro rfl
      have hf : s.firstErr = none := by
        cases hf : s.firstErr with
        | none => rfl
        | some e => rw [hf] at hres; cases hres
      have hd := hdrop (Or.inl hf)
      have ht := hleft (by rw [hp]; rfl) hf
      subst hd
      rw [hp, ht] at hsplit
      simp only [held, List.append_nil] at hsplit
      subst hsplit
      have hok : items = (oks items).map .ok := by
        clear hperm hdrop st hi
        induction items with
        | nil => rfl
        | cons x l ih =>
          cases x with
          | ok v => simp only [oks, List.map_cons, List.cons.injEq, true_and]
                    exact ih (fun e he => hgone e (List.mem_cons_of_mem _ he))
          | error e => have := hgone e List.mem_cons_self; rw [hf] at this; cases this
      have hno : ∀ p ∈ s.log, p.2 = .ok ∨ p.2 = .panic := by
        intro p hp
        obtain ⟨v, o⟩ := p
        cases o with
        | ok => exact Or.inl rfl
        | panic => exact Or.inr rfl
        | err e => obtain ⟨e', he'⟩ := hfail v e hp; rw [hf] at he'; cases he'
      exact ⟨oks items, by rw [← hok], hperm.symm, hno, fun hnp p hp => (hno p hp).resolve_right (hnp p hp)⟩
    · intro v e he
      obtain ⟨e', he'⟩ := hfail v e he
      exact ⟨e', by rw [hres, he']⟩
    · intro e he
      have hf : s.firstErr = some e := by
        cases hf : s.firstErr with
        | none => rw [hf, he] at hres; cases hres
        | some x => rw [hf, he] at hres; simp at hres; rw [hres]
      rcases hi.cause e hf with h | ⟨x, hx, hx'⟩
      · exact Or.inl h
      · exact Or.inr ⟨x, hx', Or.inr ⟨items, rfl, hx⟩⟩
    · intro items' h v
      injection h with h; subst h
      rw [← hperm.count_eq, hsplit]
      have : ∀ l : List (Except Error Vertex), oks l = l.filterMap Except.toOption := by
        intro l
        induction l with
        | nil => rfl
        | cons x l ih => cases x with
          | ok w => simp [oks, List.filterMap_cons, Except.toOption, ih]
          | error e => simp [oks, List.filterMap_cons, Except.toOption, ih]
      rw [this]
      simp only [List.filterMap_append, List.count_append]; omega

/-- C46 fails if the mapper panics: the panic is swallowed by the thread pool and `map` returns `Ok`, for every vertex `v`
and every number of threads. -/
theorem C46_refuted (numThreads : Nat) (v : Vertex) : MapCall numThreads (.ok [.ok v]) [(v, .panic)] (.ok ()) := by
  have h : Steps (max numThreads 1) (St.init [.ok v])
      ⟨[], 1, [], [], none, .returned (.ok ()), [(v, .panic)]⟩ := by
    refine .tail (.tail (.tail (.tail (.tail (.tail .refl (.next (x := .ok v) (rest := []) rfl rfl ?_)) (.push (v := v) rfl)) (.done rfl rfl))
      (.start (v := v) (rest := []) rfl ?_)) (.panic (v := v) (a := []) (b := []) rfl)) (.join rfl rfl rfl)
    · simp [St.init]
    · simp only [St.init, List.length_nil]; omega
  exact .ran h rfl

/-- The error branch: the mapper fails and `map` returns its error. -/
example (v : Vertex) (e : PluginError) : MapCall 0 (.ok [.ok v]) [(v, .err e)] (.error e) := by
  have h : Steps (max 0 1) (St.init [.ok v]) ⟨[], 1, [], [], some e, .returned (.error e), [(v, .err e)]⟩ := by
    refine .tail (.tail (.tail (.tail (.tail (.tail (.tail .refl (.next (x := .ok v) (rest := []) rfl rfl ?_)) (.push (v := v) rfl))
      (.start (v := v) (rest := []) rfl ?_)) (.err (v := v) (e := e) (a := []) (b := []) rfl)) (.done rfl rfl))
      (.recordErr (v := v) (e := e) (a := []) (b := []) rfl)) (.join rfl rfl rfl)
    · simp [St.init]
    · simp only [St.init, List.length_nil]; omega
  exact .ran h rfl

/-- At any moment at most `max(num_threads, 1)` mapper calls are running. -/
theorem C46_workers (numThreads : Nat) (items : List (Except Error Vertex)) (s : St)
    (h : Steps (max numThreads 1) (St.init items) s) : s.running.length ≤ max numThreads 1 := (Inv.steps h).room

/-- The call returns whatever the schedule, if the mapper calls do: as long as it has not returned, some step is possible,
and every step brings it closer, so that no execution has more than `5 * items + 2` steps. -/
theorem C46_terminates (numThreads : Nat) (items : List (Except Error Vertex)) (s : St)
    (h : Steps (max numThreads 1) (St.init items) s) :
    ((∀ r, s.phase ≠ .returned r) → ∃ s', PluginMap.Step (max numThreads 1) s s') ∧
    (∀ s', PluginMap.Step (max numThreads 1) s s' → work s' < work s) ∧ work s ≤ 5 * items.length + 2 := by
  refine ⟨progress (by omega), fun s' => work_decreases, ?_⟩
  induction h with
  | refl => simp [work, St.init, phaseWork, jobWork]
  | tail _ st ih => have := work_decreases st; omega

/-- The example plugin `naive_vertex_count` returns what a count query returns (on any datastore that answers `AllVertex`
with what `all_vertices` lists), unless there are 2^64 vertices. -/
theorem C46_naive_count (vs : List Vertex) (r : Except PluginError Json) (h : NaiveCount (.ok (vs.map .ok)) r)
    (hlen : vs.length < 2^64) : r = .ok (.num (.posInt (Fin.ofNat _ vs.length))) ∧
      (Fin.ofNat (2^64) vs.length).val = vs.length := by
  constructor
  · cases h with
    | ok h ho =>
      obtain ⟨h1, _⟩ := C46_map_partial _ _ _ _ h
      obtain ⟨vs', e, hp, _⟩ := h1 rfl
      have : vs = vs' := by
        injection e with e
        exact List.map_inj_right (fun a b h => by injection h) |>.1 e
      subst this
      have := hp.length_eq
      rw [List.length_map] at this
      rw [this]
    | err h ho =>
      obtain ⟨_, _, h3, _⟩ := C46_map_partial _ _ _ _ h
      rcases h3 _ rfl with ⟨v, hv⟩ | ⟨x, _, hx | ⟨items, hx, hm⟩⟩
      · have := ho _ hv; cases this
      · cases hx
      · injection hx with hx; subst hx
        obtain ⟨a, _, ha⟩ := List.mem_map.1 hm; cases ha
  · simp only [Fin.ofNat]; exact Nat.mod_eq_of_lt hlen

/-- So on both datastores the plugin and the count query agree. `vs` is what the datastore lists. -/
theorem C46_naive_count_query (S : Store) (h21 : S.CountExact) (s : S.State) (hr : S.Reach s)
    (env : S.Env) (vs : List Vertex) (hv : S.ask env .allVertex s = .ok [.vertices vs]) (hlen : vs.length < 2^64)
    (r : Except PluginError Json) (h : NaiveCount (.ok (vs.map .ok)) r) :
    ∃ k : Fin (2^64), S.value env (.count .allVertex) s = .ok (.count k.val) ∧ r = .ok (.num (.posInt k)) := by
  have : S.value env .allVertex s = .ok (.vertices vs) := by simp [Store.value, hv]
  obtain ⟨h1, h2⟩ := C46_naive_count vs r h hlen
  refine ⟨_, ?_, h1⟩
  rw [h2]
  exact h21 s hr env .allVertex _ this

/-- Both datastores satisfy the hypothesis on counting (C21), and the plugin can return. -/
example : (MS .release).CountExact ∧ (RS .release).CountExact ∧
    NaiveCount (.ok ([Vertex.mk (W.u 1) W.t].map .ok)) (.ok (.num (.posInt 1))) := by
  refine ⟨C21_memory _ _, C21_rocks _, ?_⟩
  have h : Steps (max 8 1) (St.init [.ok ⟨W.u 1, W.t⟩])
      ⟨[], 1, [], [], none, .returned (.ok ()), [(⟨W.u 1, W.t⟩, .ok)]⟩ := by
    refine .tail (.tail (.tail (.tail (.tail (.tail .refl (.next (x := .ok ⟨W.u 1, W.t⟩) (rest := []) rfl rfl ?_))
      (.push (v := ⟨W.u 1, W.t⟩) rfl)) (.done rfl rfl))
      (.start (v := ⟨W.u 1, W.t⟩) (rest := []) rfl ?_)) (.ok (v := ⟨W.u 1, W.t⟩) (a := []) (b := []) rfl)) (.join rfl rfl rfl)
    · simp [St.init]
    · simp only [St.init, List.length_nil]; omega
  exact .ok (.ran h rfl) (by simp)

end IndraDB
