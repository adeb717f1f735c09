import Verif.Proofs.RocksApart
/-
Concurrent executions on the RocksDB datastore in which calls that overlap are independent.
-/
set_option linter.unusedSimpArgs false
namespace IndraDB
namespace Rocks
open Prog Conc LockConc
variable {X : Cfg}

/-- The program reads a table once. -/
def OneScan {α : Type} (p : Prog α) : Prop := ∃ cf lo n, p = .scan cf lo n ∧ ∀ r, ∃ a, n r = .done a

theorem OneScan.bind {α β : Type} {p : Prog α} {f : α → Prog β} (h : OneScan p) (hf : ∀ a, ∃ b, f a = .done b) :
    OneScan (p >>= f) := by
  obtain ⟨cf, lo, n, rfl, hn⟩ := h
  refine ⟨cf, lo, fun r => (n r).bind f, rfl, ?_⟩
  intro r
  obtain ⟨a, ha⟩ := hn r
  show ∃ b, (n r).bind f = _
  rw [ha]
  cases a with
  | ok a => exact hf a
  | error e => exact ⟨_, rfl⟩

theorem done_lift {α β : Type} (r : Res α) (g : α → Res β) :
    ∃ b, (Prog.lift r >>= fun a => (Prog.lift (g a) : Prog β)) = .done b := by
  cases r with
  | ok a => exact ⟨_, rfl⟩
  | error e => exact ⟨_, rfl⟩

theorem oneScan (O : IdentOrder) (op : Op) (h : op.oneRead = true) : OneScan (callProg X O op) := by
  have it : ∀ id, OneScan (vertexIterate X id) := fun id => ⟨_, _, _, rfl, fun r => ⟨_, rfl⟩⟩
  have et : OneScan (edgeIterateAll .edgeRanges) := ⟨_, _, _, rfl, fun r => ⟨_, rfl⟩⟩
  cases op with
  | get q =>
    cases q with
    | allVertex =>
      exact OneScan.bind (OneScan.bind (it _) (fun a => done_lift _ (fun v => .ok _))) (fun _ => ⟨_, rfl⟩)
    | rangeVertex l t st =>
      cases st <;>
      exact OneScan.bind (OneScan.bind (it _) (fun a => done_lift _ (fun v => .ok _))) (fun _ => ⟨_, rfl⟩)
    | allEdge =>
      exact OneScan.bind (OneScan.bind et (fun a => done_lift _ (fun v => .ok _))) (fun _ => ⟨_, rfl⟩)
    | count q =>
      cases q with
      | allVertex =>
        exact OneScan.bind (OneScan.bind (OneScan.bind (it _) (fun a => ⟨_, rfl⟩)) (fun a => ⟨_, rfl⟩)) (fun _ => ⟨_, rfl⟩)
      | allEdge =>
        exact OneScan.bind (OneScan.bind (OneScan.bind et (fun a => ⟨_, rfl⟩)) (fun a => ⟨_, rfl⟩)) (fun _ => ⟨_, rfl⟩)
      | _ => simp [Op.oneRead] at h
    | _ => simp [Op.oneRead] at h
  | _ => simp [Op.oneRead] at h

theorem not_both {op : Op} (h1 : op.isWrite = true) (h2 : op.oneRead = true) : False := by
  cases op <;> simp [Op.isWrite, Op.oneRead] at h1 h2

theorem oneRead_touches {op : Op} (h : op.oneRead = true) : op.touches = none := by
  unfold Op.oneRead at h
  split at h <;> first | rfl | cases h

theorem Independent.symm {a b : Op} (h : Independent a b) : Independent b a := by
  rcases h with h | h | ⟨h1, h2⟩ | ⟨la, ca, lb, cb, h1, h2, h3, h4⟩
  · exact Or.inr (Or.inl h)
  · exact Or.inl h
  · exact Or.inr (Or.inr (Or.inl ⟨h2, h1⟩))
  · exact Or.inr (Or.inr (Or.inr ⟨lb, cb, la, ca, h2, h1, h4, h3⟩))

theorem Apart.prefix {P : Op → Prop} {a b : List Ev} (h : Apart P (a ++ b)) : Apart P a := by
  intro x y c op he
  exact h x (y ++ b) c op (by rw [he]; simp)

/-- Calls running at the same time are independent. -/
theorem Apart.running {P : Op → Prop} {h : List Ev} {S : Conc} (hs : Apart P h) (N : NumInv h S) {c c' : Nat} {op op' : Op}
    {p p' : Prog Reply} (hne : c ≠ c') (h1 : Ev.call c op ∈ h) (h2 : P op) (h3 : S.calls c = .running p)
    (h1' : Ev.call c' op' ∈ h) (h2' : P op') (h3' : S.calls c' = .running p') : Independent op op' := by
  obtain ⟨a, b, rfl⟩ := List.append_of_mem h1
  rcases List.mem_append.1 h1' with hm | hm
  · rcases hs a b c op rfl h2 c' op' hm h2' with ⟨r, hr⟩ | h
    · exact absurd (List.mem_append_left _ hr) ((N.running c' p' h3').2 r)
    · exact Independent.symm h
  · rcases List.mem_cons.1 hm with hm | hm
    · cases hm; exact absurd rfl hne
    · obtain ⟨a', b', rfl⟩ := List.append_of_mem hm
      rcases hs (a ++ .call c op :: a') b' c' op' (by simp) h2' c op (by simp) h2 with ⟨r, hr⟩ | h
      · exact absurd (by simp at hr ⊢; rcases hr with hr | hr <;> simp [hr]) ((N.running c p h3).2 r)
      · exact h

/-- The call writes, and may look at or change anything. -/
def Wild (op : Op) : Prop := op.isWrite = true ∧ op.touches = none

/-- A call that may look at or change anything is independent only of queries that read once. -/
theorem Wild.oneRead {a b : Op} (h : Wild a) (hi : Independent a b) : b.oneRead = true := by
  rcases hi with h1 | h1 | ⟨h1, _⟩ | ⟨_, _, _, _, h1, _⟩
  · exact (not_both h.1 h1).elim
  · exact h1
  · rw [h.1] at h1; cases h1
  · rw [h.2] at h1; cases h1

/-- The states agree on the keys `F` and on the indexed names. -/
def AgreeOn (F : CF → Bytes → Prop) (s s' : Rocks) : Prop :=
  s.indexed = s'.indexed ∧ ∀ cf k, F cf k → (s.kv cf).get k = (s'.kv cf).get k

theorem AgreeOn.refl {F : CF → Bytes → Prop} (s : Rocks) : AgreeOn F s s := ⟨rfl, fun _ _ _ => rfl⟩

theorem AgreeOn.trans {F : CF → Bytes → Prop} {s s' s'' : Rocks} (h : AgreeOn F s s') (h' : AgreeOn F s' s'') : AgreeOn F s s'' :=
  ⟨h.1.trans h'.1, fun cf k hk => (h.2 cf k hk).trans (h'.2 cf k hk)⟩

/-- A batch that changes only keys outside `F`. -/
theorem AgreeOn.write {F G : CF → Bytes → Prop} (hFG : ∀ cf k, F cf k → ¬ G cf k) {b : Batch} (hb : In G b) (s : Rocks) :
    AgreeOn F { s with kv := s.kv.write b } s := by
  refine ⟨rfl, fun cf k hk => ?_⟩
  show ((s.kv.write b) cf).get k = _
  have key : ∀ w ∈ b, w.at cf k = none := by
    intro w hw
    have := hb w hw
    cases w with
    | put cf' k' v =>
      simp only [WriteOp.at]
      split
      · next he => obtain ⟨rfl, rfl⟩ := he; exact absurd this (hFG _ _ hk)
      · rfl
    | delete cf' k' =>
      simp only [WriteOp.at]
      split
      · next he => obtain ⟨rfl, rfl⟩ := he; exact absurd this (hFG _ _ hk)
      · rfl
  have : ∀ b : Batch, (∀ w ∈ b, w.at cf k = none) → b.at cf k = none := by
    intro b
    induction b with
    | nil => intro _; rfl
    | cons w r ih =>
      intro h
      rw [Batch.at_cons, ih (fun w hw => h w (List.mem_cons_of_mem _ hw)), h w List.mem_cons_self]; rfl
  rw [KV.write_get, this b key]; rfl

/-- What is known of a running call that is considered. -/
structure RunOk (X : Cfg) (V : Json → Prop) (s₀ : Rocks) (db : Rocks) (L : List (rocksStoreFrom X V s₀).Lin) (t : Rocks)
    (c : Nat) (op : Op) (p : Prog Reply) : Prop where
  after : c ∈ L.map (·.c) → ∃ O r, p = .done r ∧ ⟨c, O, op, r⟩ ∈ L
  read : c ∉ L.map (·.c) → op.oneRead = true → ∃ O, p = callProg X O op
  wild : c ∉ L.map (·.c) → op.oneRead = false → op.touches = none → ∃ O, p.run db = step X O op t
  tame : c ∉ L.map (·.c) → ∀ l ch, op.touches = some (l, ch) → p.Within (Keys X l) (Keys' X ch) Eq (fun _ => True) ∧
    ∃ O, ∀ s, AgreeOn (Keys X l) s db → p.run s = (callProg X O op).run s

/-- The invariant of executions in which overlapping calls are independent. -/
structure WInv (X : Cfg) (V : Json → Prop) (s₀ : Rocks) (P : Op → Prop) (h : List Ev) (S : Conc)
    (L : List (rocksStoreFrom X V s₀).Lin) (t : Rocks) : Prop where
  lin : (rocksStoreFrom X V s₀).Linearization P h L t
  kv : S.db.kv = t.kv
  query : ∀ c op p, Ev.call c op ∈ h → S.calls c = .running p → op.isWrite = false → p.Reading
  run : ∀ c op p, Ev.call c op ∈ h → S.calls c = .running p → P op → RunOk X V s₀ S.db L t c op p
  free : (∀ c op p, Ev.call c op ∈ h → S.calls c = .running p → Wild op → c ∈ L.map (·.c)) → S.db = t
  crash : ∀ k, k ≤ S.log.length → ∃ L' t', L' <+: L ∧ (rocksStoreFrom X V s₀).Legal s₀ L' t' ∧
    t'.kv = replay s₀.kv (S.log.take k)

section
variable {V : Json → Prop} {s₀ : Rocks} {P : Op → Prop} {h : List Ev} {S : Conc} {L : List (rocksStoreFrom X V s₀).Lin}
  {t : Rocks}

/-- While a call that is not a query that reads once is running, the state is that of the sequential execution, unless the
call itself is one that may change anything. -/
theorem WInv.same (N : NumInv h S) (hP : ∀ op, op.isWrite = true → P op) (hq : Apart P h) (H : WInv X V s₀ P h S L t)
    {c : Nat} {op : Op} {p : Prog Reply} (hop : Ev.call c op ∈ h) (hc : S.calls c = .running p) (hPop : P op)
    (ho : op.oneRead = false) (hw : ¬ Wild op) : S.db = t := by
  refine H.free (fun i op' p' hi hr hw' => ?_)
  by_cases hne : i = c
  · subst hne
    rw [N.uniq i op' op hi hop] at hw'
    exact absurd hw' hw
  · have := hw'.oneRead (Apart.running hq N hne hi (hP _ hw'.1) hr hop hPop hc)
    rw [ho] at this; cases this

/-- Other running calls when `c` takes effect. -/
theorem RunOk.grow {db db' t' : Rocks} {c i : Nat} {op' : Op} {q : Prog Reply} {x : (rocksStoreFrom X V s₀).Lin}
    (R : RunOk X V s₀ db L t i op' q) (hx : x.c = c) (hne : i ≠ c)
    (hw : op'.oneRead = false → op'.touches = none → db' = db ∧ t' = t)
    (ht : ∀ l ch, op'.touches = some (l, ch) → AgreeOn (Keys X l) db' db) : RunOk X V s₀ db' (L ++ [x]) t' i op' q := by
  have hiff : i ∈ (L ++ [x]).map (·.c) ↔ i ∈ L.map (·.c) := by
    rw [List.map_append, List.mem_append]
    simp [hx, hne]
  refine ⟨?_, ?_, ?_, ?_⟩
  · intro h1
    obtain ⟨O, r, h3, h4⟩ := R.after (hiff.1 h1)
    exact ⟨O, r, h3, List.mem_append_left _ h4⟩
  · intro h1
    exact R.read (fun h => h1 (hiff.2 h))
  · intro h1 h2 h3
    rw [(hw h2 h3).1, (hw h2 h3).2]
    exact R.wild (fun h => h1 (hiff.2 h)) h2 h3
  · intro h1 l ch h2
    obtain ⟨h3, O, h4⟩ := R.tame (fun h => h1 (hiff.2 h)) l ch h2
    exact ⟨h3, O, fun s hs => h4 s (hs.trans (ht l ch h2))⟩

theorem WInv.next {e : List Ev} {S' : Conc} (N : NumInv h S) (G : LogInv s₀ h S) (hP : ∀ op, op.isWrite = true → P op)
    (hq : Apart P (h ++ e)) (H : WInv X V s₀ P h S L t) (hs : Conc.Step X S e S') :
    ∃ L' t', WInv X V s₀ P (h ++ e) S' L' t' := by
  have hq0 : Apart P h := Apart.prefix hq
  -- a step of a call that reads
  have silent : ∀ c (p p' : Prog Reply) (S' : Conc), S.calls c = .running p → S'.calls = setAt S.calls c (.running p') →
      S'.db = S.db → S'.log = S.log → (∀ a, p ≠ .done a) → (p.Reading → p'.Reading) →
      p'.run S.db = p.run S.db → (OneScan p → ∃ r, p' = .done r) →
      (∀ F G, p.Within F G Eq (fun _ => True) → p'.Within F G Eq (fun _ => True) ∧
        ∀ s, AgreeOn F s S.db → p'.run s = p.run s) →
      ∃ L' t', WInv X V s₀ P (h ++ []) S' L' t' := by
    intro c p p' S' hc h1 h2 h3 hd hR hrun hO hT
    rw [List.append_nil]
    obtain ⟨⟨op, hop⟩, _⟩ := N.running c p hc
    have query' : ∀ i op' q, Ev.call i op' ∈ h → S'.calls i = .running q → op'.isWrite = false → q.Reading := by
      intro i op' q hi hr hw
      rw [h1] at hr
      rcases setAt_eq hr with ⟨rfl, e⟩ | ⟨hne, hr⟩
      · cases e; exact hR (H.query i op' p hi hc hw)
      · exact H.query i op' q hi hr hw
    have free' : ∀ L' : List (rocksStoreFrom X V s₀).Lin, (∀ i, i ∈ L'.map (·.c) → i ≠ c → i ∈ L.map (·.c)) →
        (Wild op → c ∈ L'.map (·.c) → c ∈ L.map (·.c)) →
        (∀ i op' p, Ev.call i op' ∈ h → S'.calls i = .running p → Wild op' → i ∈ L'.map (·.c)) → S.db = t := by
      intro L' hL hLc hf
      refine H.free (fun i op' q hi hr hw => ?_)
      by_cases hne : i = c
      · subst hne
        have := N.uniq i op' op hi hop
        subst this
        exact hLc hw (hf i op' p' hi (by rw [h1]; exact setAt_self _ _ _) hw)
      · exact hL i (hf i op' q hi (by rw [h1, setAt_ne _ _ hne]; exact hr) hw) hne
    by_cases ho : P op ∧ op.oneRead = true ∧ c ∉ L.map (·.c)
    · -- a query that reads once takes effect
      obtain ⟨hPop, ho, hL⟩ := ho
      have R := H.run c op p hop hc hPop
      obtain ⟨O, rfl⟩ := R.read hL ho
      obtain ⟨cf, lo, n, hn, hdone⟩ := oneScan (X := X) O op ho
      have hw : op.isWrite = false := by
        cases hw : op.isWrite with
        | false => rfl
        | true => exact (not_both hw ho).elim
      obtain ⟨q, rfl⟩ : ∃ q, op = .get q := by
        cases op with
        | get q => exact ⟨q, rfl⟩
        | _ => simp [Op.oneRead] at ho
      obtain ⟨r, rfl⟩ := hO (oneScan O _ ho)
      have hst : step X O (.get q) t = (t, r) := by
        have e1 : (callProg X O (.get q)).run S.db = (S.db, r) := hrun.symm
        have e2 : (callProg X O (.get q)).run t = (t, r) := by
          rw [hn] at e1 ⊢
          have e3 : (n (((S.db.kv cf).rangeFrom lo).map .ok)).run S.db = (S.db, r) := e1
          show (n (((t.kv cf).rangeFrom lo).map .ok)).run t = _
          rw [H.kv] at e3
          obtain ⟨a, ha⟩ := hdone (((t.kv cf).rangeFrom lo).map .ok)
          rw [ha] at e3 ⊢
          have : a = r := congrArg Prod.snd e3
          rw [this]; rfl
        rw [← callProg_run]; exact e2
      have hst1 : ((rocksStoreFrom X V s₀).step O (.get q) t).1 = t := congrArg Prod.fst hst
      have hst2 : ((rocksStoreFrom X V s₀).step O (.get q) t).2 = r := congrArg Prod.snd hst
      have hlin := H.lin.lin c O _ hop hPop hL (fun c r hr => (N.rets c r hr).1)
      rw [hst1, hst2] at hlin
      refine ⟨_, t, hlin, by rw [h2]; exact H.kv, query', ?_, ?_, ?_⟩
      · intro i op' q' hi hr hP'
        rw [h1] at hr
        rcases setAt_eq hr with ⟨rfl, e⟩ | ⟨hne, hr⟩
        · cases e
          have := N.uniq i op' _ hi hop
          subst this
          refine ⟨fun _ => ⟨O, r, rfl, by simp⟩, fun h => ?_, fun h => ?_, fun h => ?_⟩ <;> exact absurd (by simp) h
        · rw [h2]
          exact (H.run i op' q' hi hr hP').grow rfl hne (fun _ _ => ⟨rfl, rfl⟩) (fun _ _ _ => .refl _)
      · rw [h2]
        refine free' _ (fun i hi hne => ?_) (fun hw' => ?_)
        · rw [List.map_append, List.mem_append] at hi
          rcases hi with hi | hi
          · exact hi
          · simp at hi; exact absurd hi hne
        · rw [hw'.1] at hw; cases hw
      · intro k hk
        rw [h3] at hk ⊢
        obtain ⟨L', t', h4, h5⟩ := H.crash k hk
        exact ⟨L', t', h4.trans (List.prefix_append _ _), h5⟩
    · refine ⟨L, t, H.lin, by rw [h2]; exact H.kv, query', ?_, by rw [h2]; exact free' L (fun _ h _ => h) (fun _ h => h),
        by rw [h3]; exact H.crash⟩
      intro i op' q hi hr hP'
      rw [h2]
      rw [h1] at hr
      rcases setAt_eq hr with ⟨rfl, e⟩ | ⟨hne, hr⟩
      · cases e
        have := N.uniq i op' op hi hop
        subst this
        have R := H.run i op' p hop hc hP'
        refine ⟨fun h4 => ?_, fun h4 h5 => absurd ⟨hP', h5, h4⟩ ho, fun h4 h5 h6 => ?_, fun h4 l ch h5 => ?_⟩
        · obtain ⟨O, r, h5, _⟩ := R.after h4
          exact absurd h5 (hd _)
        · obtain ⟨O, h7⟩ := R.wild h4 h5 h6
          exact ⟨O, hrun.trans h7⟩
        · obtain ⟨h6, O, h7⟩ := R.tame h4 l ch h5
          obtain ⟨h8, h9⟩ := hT _ _ h6
          exact ⟨h8, O, fun s hs => (h9 s hs).trans (h7 s hs)⟩
      · exact H.run i op' q hi hr hP'
  have os : ∀ {p : Prog Reply}, (∀ cf lo n, p ≠ .scan cf lo n) → OneScan p → ∀ p' : Prog Reply, ∃ r, p' = .done r := by
    rintro p hp ⟨cf, lo, n, h, _⟩ _
    exact absurd h (hp _ _ _)
  cases hs with
  | call c O op hc =>
    obtain ⟨hn, hr⟩ := N.unused c hc
    have hL : c ∉ L.map (·.c) := by
      intro hx
      obtain ⟨x, hm, rfl⟩ := List.mem_map.1 hx
      exact hn _ (H.lin.called x hm).1
    refine ⟨L, t, H.lin.call c op hn hr, H.kv, ?_, ?_, ?_, H.crash⟩
    · intro i op' q hi hrun hw
      rcases setAt_eq hrun with ⟨rfl, e⟩ | ⟨hne, hrun⟩
      · cases e
        have : op' = op := by simpa [hn] using hi
        subst this
        cases op' with
        | get q => exact reading_get O q
        | _ => simp [Op.isWrite] at hw
      · exact H.query i op' q (by simpa [hne] using hi) hrun hw
    · intro i op' q hi hrun hP'
      rcases setAt_eq hrun with ⟨rfl, e⟩ | ⟨hne, hrun⟩
      · cases e
        have : op' = op := by simpa [hn] using hi
        subst this
        refine ⟨fun h => absurd h hL, fun _ _ => ⟨O, rfl⟩, fun _ h1 h2 => ⟨O, ?_⟩, fun _ l ch h1 => ⟨within_call O h1, O, fun _ _ => rfl⟩⟩
        have : S.db = t := by
          refine H.free (fun j op'' p hj hrun hw => ?_)
          rcases hq h [] i op' rfl hP' j op'' hj (hP _ hw.1) with ⟨r, hr⟩ | hI
          · exact absurd hr ((N.running j p hrun).2 r)
          · rw [hw.oneRead hI] at h1; cases h1
        rw [callProg_run]
        show step X O op' S.db = _
        rw [this]
      · exact H.run i op' q (by simpa [hne] using hi) hrun hP'
    · intro hf
      refine H.free (fun i op' q hi hr hw => ?_)
      refine hf i op' q (List.mem_append_left _ hi) ?_ hw
      show setAt _ _ _ _ = _
      rw [setAt_ne]
      · exact hr
      · rintro rfl; exact hn _ hi
  | get c cf k n hc =>
    refine silent c _ (n ((S.db.kv cf).get k)) _ hc rfl rfl rfl (by simp) (fun h => h _) rfl
      (fun h => os (by simp) h _) ?_
    intro F G hW
    refine ⟨hW.2 _, fun s hs => ?_⟩
    show _ = (n ((s.kv cf).get k)).run s
    rcases hW.1 with hF | hE
    · rw [hs.2 cf k hF]
    · exact (hE _ _).eq s
  | scan c cf k n hc =>
    refine silent c _ (n (((S.db.kv cf).rangeFrom k).map .ok)) _ hc rfl rfl rfl (by simp) (fun h => h _) rfl ?_
      (fun F G hW => hW.elim)
    rintro ⟨cf', lo', n', he, hn⟩
    cases he
    exact hn _
  | readLock c _ n hc _ =>
    refine silent c _ (n S.db.indexed) _ hc rfl rfl rfl (by simp) (fun h => h _) rfl (fun h => os (by simp) h _) ?_
    intro F G hW
    refine ⟨hW _, fun s hs => ?_⟩
    show _ = (n s.indexed).run s
    rw [hs.1]
  | writeLock c n hc _ _ =>
    exact silent c _ (n S.db.indexed) _ hc rfl rfl rfl (by simp) (fun h => h.elim) rfl (fun h => os (by simp) h _)
      (fun F G hW => hW.elim)
  | setIndexed c ix n hc =>
    rw [List.append_nil]
    obtain ⟨⟨op, hop⟩, _⟩ := N.running c _ hc
    have hw : op.isWrite = true := by
      cases hw : op.isWrite with
      | true => rfl
      | false => exact (H.query c op _ hop hc hw).elim
    have R := H.run c op _ hop hc (hP _ hw)
    have hL : c ∉ L.map (·.c) := by
      intro hL
      obtain ⟨O, r, h1, _⟩ := R.after hL
      cases h1
    have hwild : Wild op := by
      refine ⟨hw, ?_⟩
      cases ht : op.touches with
      | none => rfl
      | some x => exact (R.tame hL x.1 x.2 ht).1.elim
    have h1r : op.oneRead = false := by
      cases ho : op.oneRead with
      | false => rfl
      | true => exact (not_both hw ho).elim
    obtain ⟨O, h7⟩ := R.wild hL h1r hwild.2
    refine ⟨L, t, H.lin, H.kv, ?_, ?_, ?_, H.crash⟩
    · intro i op' q hi hr hw'
      rcases setAt_eq hr with ⟨rfl, e⟩ | ⟨hne, hr⟩
      · rw [N.uniq i op' op hi hop, hw] at hw'; cases hw'
      · exact H.query i op' q hi hr hw'
    · intro i op' q hi hr hP'
      rcases setAt_eq hr with ⟨rfl, e⟩ | ⟨hne, hr⟩
      · cases e
        have := N.uniq i op' op hi hop
        subst this
        refine ⟨fun h => absurd h hL, fun _ h => (not_both hw h).elim, fun _ _ _ => ⟨O, h7⟩, fun _ l ch h => ?_⟩
        rw [hwild.2] at h; cases h
      · have h1r' := hwild.oneRead (Apart.running hq0 N (Ne.symm hne) hop (hP _ hw) hc hi hP' hr)
        have R' := H.run i op' q hi hr hP'
        refine ⟨R'.after, R'.read, fun _ h => ?_, fun _ l ch h => ?_⟩
        · rw [h1r'] at h; cases h
        · rw [oneRead_touches h1r'] at h; cases h
    · intro hf
      exact absurd (hf c op (n ()) hop (setAt_self _ _ _) hwild) hL
  | write c b n hc =>
    rw [List.append_nil]
    obtain ⟨⟨op, hop⟩, _⟩ := N.running c _ hc
    have hw : op.isWrite = true := by
      cases hw : op.isWrite with
      | true => rfl
      | false => exact (H.query c op _ hop hc hw).elim
    have R := H.run c op _ hop hc (hP _ hw)
    have hL : c ∉ L.map (·.c) := by
      intro hL
      obtain ⟨O, r, h1, _⟩ := R.after hL
      cases h1
    have h1r : op.oneRead = false := by
      cases ho : op.oneRead with
      | false => rfl
      | true => exact (not_both hw ho).elim
    obtain ⟨a, ha⟩ := G.single c _ hc
    have hrun : (Prog.write b n).run S.db = ({ S.db with kv := S.db.kv.write b }, .ok a) := by
      show (n ()).run _ = _
      rw [ha]; rfl
    have h7 : ∃ O, step X O op t = (Prog.write b n).run S.db := by
      cases ht : op.touches with
      | none =>
        obtain ⟨O, h7⟩ := R.wild hL h1r ht
        exact ⟨O, h7.symm⟩
      | some x =>
        obtain ⟨_, O, h7⟩ := R.tame hL x.1 x.2 ht
        refine ⟨O, ?_⟩
        rw [h7 _ (.refl _), callProg_run, H.same N hP hq0 hop hc (hP _ hw) h1r (fun h => by rw [h.2] at ht; cases ht)]
    obtain ⟨O, h7⟩ := h7
    rw [hrun] at h7
    have hst1 : ((rocksStoreFrom X V s₀).step O op t).1 = { S.db with kv := S.db.kv.write b } := congrArg Prod.fst h7
    have hst2 : ((rocksStoreFrom X V s₀).step O op t).2 = .ok a := congrArg Prod.snd h7
    have hlin := H.lin.lin c O op hop (hP _ hw) hL (fun c r hr => (N.rets c r hr).1)
    rw [hst1, hst2] at hlin
    refine ⟨_, _, hlin, rfl, ?_, ?_, fun _ => rfl, ?_⟩
    · intro i op' q hi hr hw'
      rcases setAt_eq hr with ⟨rfl, e⟩ | ⟨hne, hr⟩
      · rw [N.uniq i op' op hi hop, hw] at hw'; cases hw'
      · exact H.query i op' q hi hr hw'
    · intro i op' q' hi hr hP'
      rcases setAt_eq hr with ⟨rfl, e⟩ | ⟨hne, hr⟩
      · cases e
        have := N.uniq i op' op hi hop
        subst this
        refine ⟨fun _ => ⟨O, .ok a, ha, by simp⟩, fun h => ?_, fun h => ?_, fun h => ?_⟩ <;> exact absurd (by simp) h
      · have hI := Apart.running hq0 N (Ne.symm hne) hop (hP _ hw) hc hi hP' hr
        refine (H.run i op' q' hi hr hP').grow rfl hne (fun h1 h2 => ?_) (fun l ch h1 => ?_)
        · rcases hI with h3 | h3 | ⟨h3, _⟩ | ⟨_, _, _, _, _, h3, _⟩
          · rw [h1r] at h3; cases h3
          · rw [h1] at h3; cases h3
          · rw [hw] at h3; cases h3
          · rw [h2] at h3; cases h3
        · rcases hI with h3 | h3 | ⟨h3, _⟩ | ⟨l', ch', l2, ch2, h3, h4, h5, _⟩
          · rw [h1r] at h3; cases h3
          · rw [oneRead_touches h3] at h1; cases h1
          · rw [hw] at h3; cases h3
          · rw [h1] at h4; cases h4
            exact AgreeOn.write (fun cf k => keys_apart h5) (R.tame hL l' ch' h3).1.1 S.db
    · intro k hk
      have hk' : k ≤ S.log.length + 1 := by
        have : k ≤ (S.log ++ [(c, b)]).length := hk
        simpa using this
      show ∃ L' t', _ ∧ _ ∧ Rocks.kv t' = replay s₀.kv ((S.log ++ [(c, b)]).take k)
      by_cases hk2 : k ≤ S.log.length
      · obtain ⟨L', t', h4, h5⟩ := H.crash k hk2
        refine ⟨L', t', h4.trans (List.prefix_append _ _), ?_⟩
        rw [List.take_append_of_le_length hk2]; exact h5
      · have : k = S.log.length + 1 := by omega
        subst this
        refine ⟨_, _, List.prefix_refl _, hlin.legal, ?_⟩
        rw [List.take_of_length_le (by simp)]
        show S.db.kv.write b = _
        rw [G.kv]; simp [replay]
  | unlock c r hc hw => rw [List.append_nil]; exact ⟨L, t, H.lin, H.kv, H.query, H.run, H.free, H.crash⟩
  | unlockRead c r hc hw => rw [List.append_nil]; exact ⟨L, t, H.lin, H.kv, H.query, H.run, H.free, H.crash⟩
  | ret c r hc hnw _ =>
    obtain ⟨⟨op, hop⟩, hnr⟩ := N.running c _ hc
    have query' : ∀ i op' q, Ev.call i op' ∈ h ++ [Ev.ret c r] → setAt S.calls c .finished i = .running q →
        op'.isWrite = false → q.Reading := by
      intro i op' q hi hr hw
      rcases setAt_eq hr with ⟨_, e⟩ | ⟨hne, hr⟩
      · cases e
      · exact H.query i op' q (by simpa using hi) hr hw
    have calls : ∀ {L' : List (rocksStoreFrom X V s₀).Lin} {db' t' : Rocks},
        (∀ i op' q, i ≠ c → Ev.call i op' ∈ h → S.calls i = .running q → P op' → RunOk X V s₀ db' L' t' i op' q) →
        ∀ i op' q, Ev.call i op' ∈ h ++ [Ev.ret c r] → setAt S.calls c .finished i = .running q → P op' →
        RunOk X V s₀ db' L' t' i op' q := by
      intro L' db' t' hall i op' q hi hr hP'
      rcases setAt_eq hr with ⟨_, e⟩ | ⟨hne, hr⟩
      · cases e
      · exact hall i op' q hne (by simpa using hi) hr hP'
    by_cases hcase : P op ∧ c ∉ L.map (·.c)
    · -- a call that has not taken effect does so
      obtain ⟨hPop, hL⟩ := hcase
      have R := H.run c op _ hop hc hPop
      have h1r : op.oneRead = false := by
        cases ho : op.oneRead with
        | false => rfl
        | true =>
          obtain ⟨O, h1⟩ := R.read hL ho
          obtain ⟨cf, lo, n, h3, _⟩ := oneScan (X := X) O op ho
          rw [h3] at h1; cases h1
      have h8 : ∃ O, step X O op t = (S.db, r) := by
        cases ht : op.touches with
        | none =>
          obtain ⟨O, h7⟩ := R.wild hL h1r ht
          exact ⟨O, h7.symm⟩
        | some x =>
          obtain ⟨_, O, h7⟩ := R.tame hL x.1 x.2 ht
          refine ⟨O, ?_⟩
          have e1 := h7 _ (.refl _)
          rw [callProg_run] at e1
          have e2 := H.same N hP hq0 hop hc hPop h1r (fun h => by rw [h.2] at ht; cases ht)
          show dbStep (txn X O) op t = _
          rw [← e2]
          exact e1.symm
      obtain ⟨O, h8⟩ := h8
      have hst1 : ((rocksStoreFrom X V s₀).step O op t).1 = S.db := congrArg Prod.fst h8
      have hst2 : ((rocksStoreFrom X V s₀).step O op t).2 = r := congrArg Prod.snd h8
      have hlin := H.lin.lin c O op hop hPop hL (fun c r hr => (N.rets c r hr).1)
      rw [hst1, hst2] at hlin
      refine ⟨_, _, hlin.ret c r ?_, rfl, query', calls ?_, fun _ => rfl, ?_⟩
      · intro op' hop' _
        have := N.uniq c op' op hop' hop
        subst this
        exact ⟨O, by simp⟩
      · intro i op' q hne hi hr hP'
        refine (H.run i op' q hi hr hP').grow rfl hne (fun h1 h2 => ⟨rfl, ?_⟩) (fun _ _ _ => .refl _)
        refine H.same N hP hq0 hop hc hPop h1r (fun hw => ?_)
        rw [hw.oneRead (Apart.running hq0 N (Ne.symm hne) hop hPop hc hi hP' hr)] at h1; cases h1
      · intro k hk
        obtain ⟨L', t', h4, h5⟩ := H.crash k hk
        exact ⟨L', t', h4.trans (List.prefix_append _ _), h5⟩
    · refine ⟨L, t, H.lin.ret c r ?_, H.kv, query', calls (fun i op' q _ hi hr hP' => H.run i op' q hi hr hP'), ?_, H.crash⟩
      · intro op' hop' hP'
        have := N.uniq c op' op hop' hop
        subst this
        have hL : c ∈ L.map (·.c) := by
          by_cases hL : c ∈ L.map (·.c)
          · exact hL
          · exact absurd ⟨hP', hL⟩ hcase
        obtain ⟨O, r', h1, h2⟩ := (H.run c op' _ hop hc hP').after hL
        cases h1
        exact ⟨O, h2⟩
      · intro hf
        refine H.free (fun i op' q hi hr hw => ?_)
        by_cases hne : i = c
        · subst hne
          have := N.uniq i op' op hi hop
          subst this
          by_cases hL : i ∈ L.map (·.c)
          · exact hL
          · exact absurd ⟨hP _ hw.1, hL⟩ hcase
        · exact hf i op' q (List.mem_append_left _ hi) (by show setAt _ _ _ _ = _; rw [setAt_ne _ _ hne]; exact hr) hw

end

theorem WInv.exec {V : Json → Prop} {s : Rocks} {P : Op → Prop} {h : List Ev} {S : Conc} (hx : Exec X s h S)
    (hP : ∀ op, op.isWrite = true → P op) (hq : Apart P h) : ∃ L t, WInv X V s P h S L t := by
  induction hx with
  | nil =>
    refine ⟨[], s, .nil, rfl, ?_, ?_, fun _ => rfl, ?_⟩
    · intro c op p hc; cases hc
    · intro c op p hc; cases hc
    · intro k hk
      refine ⟨[], s, List.prefix_refl _, rfl, ?_⟩
      have : k = 0 := by simpa [Conc.init] using hk
      subst this; rfl
  | snoc hx hs ih =>
    obtain ⟨L, t, H⟩ := ih (Apart.prefix hq)
    exact H.next (NumInv.exec hx) (LogInv.exec hx) hP hq hs

end Rocks
end IndraDB
