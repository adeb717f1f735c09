import Verif.Spec.RocksConc
import Verif.Proofs.RocksConc
/-
Invariants of concurrent executions on the RocksDB datastore.
-/
set_option linter.unusedSimpArgs false
namespace IndraDB
namespace Rocks
open Prog Conc LockConc
variable {X : Cfg}

theorem setAt_eq {α : Type} {f : Nat → α} {c i : Nat} {a b : α} (h : setAt f c a i = b) : (i = c ∧ a = b) ∨ (i ≠ c ∧ f i = b) := by
  by_cases hi : i = c
  · subst hi; rw [setAt_self] at h; exact Or.inl ⟨rfl, h⟩
  · rw [setAt_ne _ _ hi] at h; exact Or.inr ⟨hi, h⟩

/-! ### Whatever the calls are -/

/-- Facts about call numbers. -/
structure NumInv (h : List Ev) (S : Conc) : Prop where
  unused : ∀ c, S.calls c = .unused → (∀ op, Ev.call c op ∉ h) ∧ ∀ r, Ev.ret c r ∉ h
  running : ∀ c p, S.calls c = .running p → (∃ op, Ev.call c op ∈ h) ∧ ∀ r, Ev.ret c r ∉ h
  finished : ∀ c, S.calls c = .finished → (∃ op, Ev.call c op ∈ h) ∧ ∃ r, Ev.ret c r ∈ h
  uniq : ∀ c op op', Ev.call c op ∈ h → Ev.call c op' ∈ h → op = op'
  rets : ∀ c r, Ev.ret c r ∈ h → (∃ op, Ev.call c op ∈ h) ∧ S.calls c = .finished ∧ ∀ r', Ev.ret c r' ∈ h → r' = r

/-- A silent step of the running call `c`. -/
theorem NumInv.silent {h : List Ev} {S S' : Conc} (H : NumInv h S) {c : Nat} {p p' : Prog Reply}
    (hc : S.calls c = .running p) (h' : S'.calls = setAt S.calls c (.running p')) : NumInv (h ++ []) S' := by
  rw [List.append_nil]
  refine ⟨?_, ?_, ?_, H.uniq, ?_⟩
  · intro i hi
    rw [h'] at hi
    rcases setAt_eq hi with ⟨_, h1⟩ | ⟨_, h1⟩
    · cases h1
    · exact H.unused i h1
  · intro i q hi
    rw [h'] at hi
    rcases setAt_eq hi with ⟨rfl, _⟩ | ⟨_, h1⟩
    · exact H.running i p hc
    · exact H.running i q h1
  · intro i hi
    rw [h'] at hi
    rcases setAt_eq hi with ⟨_, h1⟩ | ⟨_, h1⟩
    · cases h1
    · exact H.finished i h1
  · intro i r hr
    obtain ⟨h1, h2, h3⟩ := H.rets i r hr
    have hi : i ≠ c := by rintro rfl; rw [hc] at h2; cases h2
    exact ⟨h1, by rw [h', setAt_ne _ _ hi]; exact h2, h3⟩

theorem NumInv.step {h e : List Ev} {S S' : Conc} (H : NumInv h S) (hs : Conc.Step X S e S') : NumInv (h ++ e) S' := by
  cases hs with
  | call c O op hc =>
    obtain ⟨hn, hr⟩ := H.unused c hc
    refine ⟨?_, ?_, ?_, ?_, ?_⟩
    · intro i hi
      rcases setAt_eq hi with ⟨_, h1⟩ | ⟨h0, h1⟩
      · cases h1
      · have := H.unused i h1
        exact ⟨by simpa [h0] using this.1, by simpa using this.2⟩
    · intro i q hi
      rcases setAt_eq hi with ⟨rfl, _⟩ | ⟨_, h1⟩
      · exact ⟨⟨op, by simp⟩, by simpa using hr⟩
      · obtain ⟨⟨op', h2⟩, h3⟩ := H.running i q h1
        exact ⟨⟨op', List.mem_append_left _ h2⟩, by simpa using h3⟩
    · intro i hi
      rcases setAt_eq hi with ⟨_, h1⟩ | ⟨_, h1⟩
      · cases h1
      · obtain ⟨⟨op', h2⟩, r', h3⟩ := H.finished i h1
        exact ⟨⟨op', List.mem_append_left _ h2⟩, r', List.mem_append_left _ h3⟩
    · intro i op1 op2 h1 h2
      by_cases hi : i = c
      · subst hi
        have e1 : op1 = op := by simpa [hn] using h1
        have e2 : op2 = op := by simpa [hn] using h2
        rw [e1, e2]
      · exact H.uniq i op1 op2 (by simpa [hi] using h1) (by simpa [hi] using h2)
    · intro i r h1
      have h1' : Ev.ret i r ∈ h := by simpa using h1
      obtain ⟨⟨op', h2⟩, h3, h4⟩ := H.rets i r h1'
      have hi : i ≠ c := by rintro rfl; exact hr r h1'
      refine ⟨⟨op', List.mem_append_left _ h2⟩, ?_, by simpa using h4⟩
      show setAt _ _ _ _ = _
      rw [setAt_ne _ _ hi]; exact h3
  | get c cf k n hc => exact H.silent hc rfl
  | scan c cf k n hc => exact H.silent hc rfl
  | write c b n hc => exact H.silent hc rfl
  | readLock c _ n hc _ => exact H.silent hc rfl
  | writeLock c n hc _ _ => exact H.silent hc rfl
  | setIndexed c ix n hc => exact H.silent hc rfl
  | unlock c r hc hw => rw [List.append_nil]; exact ⟨H.unused, H.running, H.finished, H.uniq, H.rets⟩
  | unlockRead c r hc hw => rw [List.append_nil]; exact ⟨H.unused, H.running, H.finished, H.uniq, H.rets⟩
  | ret c r hc hw _ =>
    obtain ⟨⟨op, hop⟩, hr⟩ := H.running c _ hc
    refine ⟨?_, ?_, ?_, by simpa using H.uniq, ?_⟩
    · intro i hi
      rcases setAt_eq hi with ⟨_, h1⟩ | ⟨h0, h1⟩
      · cases h1
      · have := H.unused i h1
        exact ⟨by simpa using this.1, by simpa [h0] using this.2⟩
    · intro i q hi
      rcases setAt_eq hi with ⟨_, h1⟩ | ⟨h0, h1⟩
      · cases h1
      · obtain ⟨⟨op', h2⟩, h3⟩ := H.running i q h1
        exact ⟨⟨op', List.mem_append_left _ h2⟩, by simpa [h0] using h3⟩
    · intro i hi
      rcases setAt_eq hi with ⟨rfl, h1⟩ | ⟨h0, h1⟩
      · exact ⟨⟨op, List.mem_append_left _ hop⟩, r, by simp⟩
      · obtain ⟨⟨op', h2⟩, r', h3⟩ := H.finished i h1
        exact ⟨⟨op', List.mem_append_left _ h2⟩, r', List.mem_append_left _ h3⟩
    · intro i r' h1
      by_cases hi : i = c
      · subst hi
        have e1 : r' = r := by simpa [hr] using h1
        subst e1
        refine ⟨⟨op, List.mem_append_left _ hop⟩, setAt_self _ _ _, ?_⟩
        intro r'' h2
        simpa [hr] using h2
      · obtain ⟨⟨op', h2⟩, h3, h4⟩ := H.rets i r' (by simpa [hi] using h1)
        refine ⟨⟨op', List.mem_append_left _ h2⟩, ?_, by simpa [hi] using h4⟩
        show setAt _ _ _ _ = _
        rw [setAt_ne _ _ hi]; exact h3

theorem NumInv.exec {s : Rocks} {h : List Ev} {S : Conc} (hx : Exec X s h S) : NumInv h S := by
  induction hx with
  | nil => exact ⟨by simp, (by intro c p h; cases h), (by intro c h; cases h), by simp, by simp⟩
  | snoc _ hs ih => exact ih.step hs

/-- The log. -/
structure LogInv (s : Rocks) (h : List Ev) (S : Conc) : Prop where
  single : ∀ c p, S.calls c = .running p → p.Single
  kv : S.db.kv = replay s.kv S.log
  nodup : (S.log.map (·.1)).Nodup
  wrote : ∀ c ∈ S.log.map (·.1), (∃ a, S.calls c = .running (.done (.ok a))) ∨
    (S.calls c = .finished ∧ ∃ a, Ev.ret c (.ok a) ∈ h)

/-- A silent step of the running call `c` that does not write. -/
theorem LogInv.silent {s : Rocks} {h : List Ev} {S S' : Conc} (H : LogInv s h S) {c : Nat} {p p' : Prog Reply}
    (hc : S.calls c = .running p) (hp : ∀ a, p ≠ .done a) (hp' : p'.Single)
    (h1 : S'.calls = setAt S.calls c (.running p')) (h2 : S'.db.kv = S.db.kv) (h3 : S'.log = S.log) :
    LogInv s (h ++ []) S' := by
  rw [List.append_nil]
  refine ⟨?_, by rw [h2, h3]; exact H.kv, by rw [h3]; exact H.nodup, ?_⟩
  · intro i q hi
    rw [h1] at hi
    rcases setAt_eq hi with ⟨_, h4⟩ | ⟨_, h4⟩
    · cases h4; exact hp'
    · exact H.single i q h4
  · intro i hi
    rw [h3] at hi
    have hic : i ≠ c := by
      rintro rfl
      rcases H.wrote i hi with ⟨a, ha⟩ | ⟨ha, _⟩
      · rw [hc] at ha; cases ha; exact hp _ rfl
      · rw [hc] at ha; cases ha
    rw [h1, setAt_ne _ _ hic]
    exact H.wrote i hi

theorem LogInv.step {s : Rocks} {h e : List Ev} {S S' : Conc} (N : NumInv h S) (H : LogInv s h S) (hs : Conc.Step X S e S') :
    LogInv s (h ++ e) S' := by
  cases hs with
  | call c O op hc =>
    refine ⟨?_, H.kv, H.nodup, ?_⟩
    · intro i q hi
      rcases setAt_eq hi with ⟨_, h4⟩ | ⟨_, h4⟩
      · cases h4; exact single_call O op
      · exact H.single i q h4
    · intro i hi
      have hic : i ≠ c := by
        rintro rfl
        rcases H.wrote i hi with ⟨a, ha⟩ | ⟨ha, _⟩ <;> · rw [hc] at ha; cases ha
      show (∃ a, setAt _ _ _ _ = _) ∨ (setAt _ _ _ _ = _ ∧ _)
      rw [setAt_ne _ _ hic]
      rcases H.wrote i hi with h1 | ⟨h1, a, h2⟩
      · exact Or.inl h1
      · exact Or.inr ⟨h1, a, List.mem_append_left _ h2⟩
  | get c cf k n hc => exact H.silent hc (by simp) (H.single c _ hc _) rfl rfl rfl
  | scan c cf k n hc => exact H.silent hc (by simp) (H.single c _ hc _) rfl rfl rfl
  | write c b n hc =>
    rw [List.append_nil]
    obtain ⟨a, ha⟩ := H.single c _ hc
    have hcl : c ∉ S.log.map (·.1) := by
      intro hh
      rcases H.wrote c hh with ⟨a, ha⟩ | ⟨ha, _⟩ <;> · rw [hc] at ha; cases ha
    refine ⟨?_, ?_, ?_, ?_⟩
    · intro i q hi
      rcases setAt_eq hi with ⟨_, h4⟩ | ⟨_, h4⟩
      · cases h4; rw [ha]; trivial
      · exact H.single i q h4
    · show S.db.kv.write b = replay s.kv (S.log ++ [(c, b)])
      rw [H.kv]; simp [replay]
    · show ((S.log ++ [(c, b)]).map (·.1)).Nodup
      rw [List.map_append]
      refine List.nodup_append.2 ⟨H.nodup, by simp, ?_⟩
      intro x hx y hy
      simp at hy; subst hy
      rintro rfl; exact hcl hx
    · intro i hi
      have hi' : i ∈ (S.log ++ [(c, b)]).map (·.1) := hi
      rw [List.map_append] at hi'
      show (∃ a, setAt _ _ _ _ = _) ∨ (setAt _ _ _ _ = _ ∧ _)
      rcases List.mem_append.1 hi' with h2 | h2
      · have hic : i ≠ c := by rintro rfl; exact hcl h2
        rw [setAt_ne _ _ hic]; exact H.wrote i h2
      · simp at h2; subst h2
        rw [setAt_self, ha]
        exact Or.inl ⟨a, rfl⟩
  | readLock c _ n hc _ => exact H.silent hc (by simp) (H.single c _ hc _) rfl rfl rfl
  | writeLock c n hc _ _ => exact H.silent hc (by simp) (H.single c _ hc _) rfl rfl rfl
  | setIndexed c ix n hc => exact H.silent (p' := n ()) hc (by simp) (H.single c (.setIndexed ix n) hc) rfl rfl rfl
  | unlock c r hc hw => rw [List.append_nil]; exact ⟨H.single, H.kv, H.nodup, H.wrote⟩
  | unlockRead c r hc hw => rw [List.append_nil]; exact ⟨H.single, H.kv, H.nodup, H.wrote⟩
  | ret c r hc hw _ =>
    refine ⟨?_, H.kv, H.nodup, ?_⟩
    · intro i q hi
      rcases setAt_eq hi with ⟨_, h4⟩ | ⟨_, h4⟩
      · cases h4
      · exact H.single i q h4
    · intro i hi
      show (∃ a, setAt _ _ _ _ = _) ∨ (setAt _ _ _ _ = _ ∧ _)
      by_cases hic : i = c
      · subst hic
        rw [setAt_self]
        rcases H.wrote i hi with ⟨a, ha⟩ | ⟨ha, _⟩
        · rw [hc] at ha; cases ha
          exact Or.inr ⟨rfl, a, by simp⟩
        · rw [hc] at ha; cases ha
      · rw [setAt_ne _ _ hic]
        rcases H.wrote i hi with h1 | ⟨h1, a, h2⟩
        · exact Or.inl h1
        · exact Or.inr ⟨h1, a, List.mem_append_left _ h2⟩

theorem LogInv.exec {s : Rocks} {h : List Ev} {S : Conc} (hx : Exec X s h S) : LogInv s h S := by
  induction hx with
  | nil => exact ⟨(by intro c p h; cases h), rfl, List.nodup_nil, by intro c hc; cases hc⟩
  | snoc hx hs ih => exact ih.step (NumInv.exec hx) hs

/-! ### The tables stay well formed -/

/-- All calls of the history write values in `V`. -/
def OkCalls (V : Json → Prop) (h : List Ev) : Prop := ∀ c op, Ev.call c op ∈ h → op.ValuesOk V

structure WfInv (X : Cfg) (V : Json → Prop) (S : Conc) : Prop where
  wf : Wf X S.db.kv
  values : Values X V S.db.kv
  all : ∀ c p, S.calls c = .running p → p.All (BatchOk X V) (fun _ => True)

theorem WfInv.silent {V : Json → Prop} {S S' : Conc} (H : WfInv X V S) {c : Nat} {p' : Prog Reply}
    (hp' : p'.All (BatchOk X V) (fun _ => True)) (h1 : S'.calls = setAt S.calls c (.running p'))
    (h2 : Wf X S'.db.kv ∧ Values X V S'.db.kv) : WfInv X V S' := by
  refine ⟨h2.1, h2.2, ?_⟩
  intro i q hi
  rw [h1] at hi
  rcases setAt_eq hi with ⟨_, h4⟩ | ⟨_, h4⟩
  · cases h4; exact hp'
  · exact H.all i q h4

theorem WfInv.step {V : Json → Prop} {e : List Ev} {S S' : Conc} (H : WfInv X V S) (hs : Conc.Step X S e S')
    (he : OkCalls V e) : WfInv X V S' := by
  have same := And.intro H.wf H.values
  cases hs with
  | call c O op hc => exact H.silent (all_call O op (he c op (by simp))) rfl same
  | get c cf k n hc => exact H.silent (H.all c _ hc _) rfl same
  | scan c cf k n hc => exact H.silent (H.all c _ hc _) rfl same
  | write c b n hc => exact H.silent (H.all c _ hc).2 rfl ⟨H.wf.write (H.all c _ hc).1, H.values.write (H.all c _ hc).1⟩
  | readLock c _ n hc _ => exact H.silent (H.all c _ hc _) rfl same
  | writeLock c n hc _ _ => exact H.silent (H.all c _ hc _) rfl same
  | setIndexed c ix n hc => exact H.silent (p' := n ()) (H.all c (.setIndexed ix n) hc) rfl same
  | unlock c r hc hw => exact ⟨H.wf, H.values, H.all⟩
  | unlockRead c r hc hw => exact ⟨H.wf, H.values, H.all⟩
  | ret c r hc hw _ =>
    refine ⟨H.wf, H.values, ?_⟩
    intro i q hi
    rcases setAt_eq hi with ⟨_, h4⟩ | ⟨_, h4⟩
    · cases h4
    · exact H.all i q h4

theorem WfInv.exec {V : Json → Prop} {s : Rocks} {h : List Ev} {S : Conc} (hw : Wf X s.kv) (hv : Values X V s.kv)
    (hx : Exec X s h S) (ho : OkCalls V h) : WfInv X V S := by
  induction hx with
  | nil => exact ⟨hw, hv, by intro c p h; cases h⟩
  | snoc hx hs ih =>
    exact (ih (fun c op hc => ho c op (List.mem_append_left _ hc))).step hs
      (fun c op hc => ho c op (List.mem_append_right _ hc))

/-- The states that concurrent executions of calls with readable values reach satisfy the invariant. -/
theorem Inv.exec {h : List Ev} {S : Conc} (hx : Exec X Rocks.init h S) (ho : OkCalls (CanRead X) h) : Inv X S.db := by
  have := WfInv.exec Wf.empty Values.empty hx ho
  exact ⟨this.wf, this.values⟩

end Rocks
end IndraDB
