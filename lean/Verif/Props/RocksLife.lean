import Verif.Spec.RocksLife
import Verif.Props.RocksConc
/-
C57 for the RocksDB datastore: sessions that end at any moment.
-/
namespace IndraDB
open Rocks Rocks.Conc

variable (X : Cfg)

/-- The calls of a linearization, in order. -/
def linCalls {X : Cfg} {s : Rocks} (L : List (rocksStoreFrom X (CanRead X) s).Lin) : List (IdentOrder × Op) :=
  L.map (fun y => (y.env, y.op))

/-- The calls `l` survive the session: there is a linearization of its calls satisfying `P` (those that returned are in it with their
outcomes and in an order compatible with the order in time) of which `l` is a beginning, and the whole if only the
process died. -/
def Survives (P : Op → Prop) (x : Session) (l : List (IdentOrder × Op)) : Prop :=
  ∃ (L : List (rocksStoreFrom X (CanRead X) x.start).Lin) (u : Rocks) (n : Nat),
    (rocksStoreFrom X (CanRead X) x.start).Linearization P x.h L u ∧
    l = linCalls (L.take n) ∧ (x.k = x.conc.log.length → l = linCalls L)

variable {X}

theorem run_from (s : Rocks) (l : List (IdentOrder × Op)) (u : Rocks) :
    (rocksStoreFrom X (CanRead X) s).run l u = (rocksStore X).run l u := by
  induction l generalizing u with
  | nil => rfl
  | cons x r ih => exact ih _

theorem lin_length {P : Op → Prop} {s : Rocks} {h : List Ev} {L : List (rocksStoreFrom X (CanRead X) s).Lin} {u : Rocks}
    (H : (rocksStoreFrom X (CanRead X) s).Linearization P h L u) : L.length ≤ h.length := by
  have h1 : (L.map (fun x => Ev.call x.c x.op)).Nodup := by
    have := H.once
    rw [List.Nodup, List.pairwise_map] at this ⊢
    exact this.imp (fun hne e => hne (by injection e))
  have h2 : L.map (fun x => Ev.call x.c x.op) ⊆ h := by
    intro e he
    obtain ⟨x, hx, rfl⟩ := List.mem_map.1 he
    exact (H.called x hx).1
  simpa using h1.length_le_of_subset h2

theorem indexed_length (l : List (IdentOrder × Op)) (ho : (rocksStore X).OkHist l) :
    ((rocksStore X).run l Rocks.init).indexed.elems.length ≤ l.length := by
  have h1 : ((rocksStore X).run l Rocks.init).indexed.elems.map Op.indexProperty ⊆ l.map (·.2) := by
    intro o hm
    obtain ⟨n, hn, rfl⟩ := List.mem_map.1 hm
    have hn' : ((rocksStore X).graph ((rocksStore X).run l Rocks.init)).indexed n = true := SSet.mem_elems.1 hn
    obtain ⟨p, hp, he⟩ := ((conforms X).indexed_hist (fun _ => rfl) l ho rfl n).1 hn'
    exact List.mem_map.2 ⟨p, hp, he⟩
  have h2 : (((rocksStore X).run l Rocks.init).indexed.elems.map Op.indexProperty).Nodup := by
    have := SSet.nodup_elems ((rocksStore X).run l Rocks.init).indexed
    rw [List.Nodup, List.pairwise_map]
    exact this.imp (fun hne e => hne (by injection e))
  simpa using h2.length_le_of_subset h1

/-- One session: opening again succeeds and gives the state after the calls that survive. -/
theorem session_end {P : Op → Prop} (hP : ∀ op, op.isWrite = true → P op) {l : List (IdentOrder × Op)} (ho : (rocksStore X).OkHist l) {h : List Ev} {S : Conc} {k : Nat}
    (hx : Exec X ((rocksStore X).run l Rocks.init) h S) (hk : k ≤ S.log.length) (hq : Apart P h)
    (hc : OkCalls (CanRead X) h) (hn : l.length + h.length < 2 ^ 64) :
    ∃ l', Survives X P ⟨(rocksStore X).run l Rocks.init, h, S, k⟩ l' ∧ (rocksStore X).OkHist (l ++ l') ∧ l'.length ≤ h.length ∧
      (newDb (Dir.full (replay ((rocksStore X).run l Rocks.init).kv (S.log.take k)))).2 =
        .ok ((rocksStore X).run (l ++ l') Rocks.init) := by
  obtain ⟨L, u, H⟩ := WInv.exec (V := CanRead X) hx hP hq
  have key : ∀ n, (∃ t', (rocksStoreFrom X (CanRead X) ((rocksStore X).run l Rocks.init)).Legal
        ((rocksStore X).run l Rocks.init) (L.take n) t' ∧
        t'.kv = replay ((rocksStore X).run l Rocks.init).kv (S.log.take k)) →
      (rocksStore X).OkHist (l ++ linCalls (L.take n)) ∧
      (linCalls (L.take n)).length ≤ h.length ∧
      (newDb (Dir.full (replay ((rocksStore X).run l Rocks.init).kv (S.log.take k)))).2 =
        .ok ((rocksStore X).run (l ++ linCalls (L.take n)) Rocks.init) := by
    rintro n ⟨t', h1, h2⟩
    have ho' : (rocksStore X).OkHist (l ++ linCalls (L.take n)) := by
      intro p hp
      rcases List.mem_append.1 hp with hp | hp
      · exact ho p hp
      · obtain ⟨y, hy, rfl⟩ := List.mem_map.1 hp
        exact hc _ _ (H.lin.called y (List.mem_of_mem_take hy)).1
    have hl : (linCalls (L.take n)).length ≤ h.length := by
      have := lin_length H.lin
      simp only [linCalls, List.length_map, List.length_take]; omega
    have ht : t' = (rocksStore X).run (l ++ linCalls (L.take n)) Rocks.init :=
      (Store.Legal.reach h1).trans ((run_from ((rocksStore X).run l Rocks.init) (linCalls (L.take n)) ((rocksStore X).run l Rocks.init)).trans
        (Store.run_append (rocksStore X) l (linCalls (L.take n)) Rocks.init).symm)
    refine ⟨ho', hl, ?_⟩
    rw [newDb_full, ← h2, ht]
    refine load_full (md_reach ⟨_, rfl, rfl, ho'⟩) ?_
    have := indexed_length _ ho'
    rw [List.length_append] at this
    omega
  by_cases hfull : k = S.log.length
  · have h1 : replay ((rocksStore X).run l Rocks.init).kv (S.log.take k) = u.kv := by
      rw [hfull, List.take_length, ← H.kv]; exact (C29_rocks_log X h S _ hx).1.symm
    have := key L.length ⟨u, by rw [List.take_length]; exact H.lin.legal, h1.symm⟩
    exact ⟨_, ⟨L, u, L.length, H.lin, rfl, fun _ => by rw [List.take_length]⟩, this.1, this.2.1, this.2.2⟩
  · obtain ⟨L', t', h1, h2, h3⟩ := H.crash k hk
    obtain ⟨n, rfl⟩ : ∃ n, L' = L.take n := ⟨L'.length, (List.prefix_iff_eq_take.1 h1)⟩
    have := key n ⟨t', h2, h3⟩
    exact ⟨_, ⟨L, u, n, H.lin, rfl, fun e => absurd e hfull⟩, this.1, this.2.1, this.2.2⟩

/-- The number of calls and replies of a life. -/
def lifeLength (ss : List Session) : Nat := (ss.map (·.h.length)).sum

theorem life_state {P : Op → Prop} (hP : ∀ op, op.isWrite = true → P op) {ss : List Session} {s : Rocks} (hl : RocksLife X ss s)
    (hq : ∀ x ∈ ss, Apart P x.h ∧ OkCalls (CanRead X) x.h) (hn : lifeLength ss < 2 ^ 64) :
    ∃ ls : List (List (IdentOrder × Op)), Matched (Survives X P) ss ls ∧ s = (rocksStore X).run ls.flatten Rocks.init ∧
      (rocksStore X).OkHist ls.flatten ∧ ls.flatten.length ≤ lifeLength ss := by
  induction hl with
  | new h =>
    injection (show Except.ok Rocks.init = _ from h) with h
    exact ⟨[], ⟨rfl, fun i x y hx => by simp at hx⟩, h.symm, fun p hp => (nomatch hp), Nat.le_refl _⟩
  | @again ss s t h S k _ hx hk ht ih =>
    have e : lifeLength (ss ++ [⟨s, h, S, k⟩]) = lifeLength ss + h.length := by simp [lifeLength]
    rw [e] at hn ⊢
    obtain ⟨ls, h1, h2, h3, h4⟩ := ih (fun x hx => hq x (List.mem_append_left _ hx)) (by omega)
    have hq' := hq ⟨s, h, S, k⟩ (by simp)
    clear ih e
    subst h2
    obtain ⟨l', g1, g2, g3, g4⟩ := session_end hP h3 hx hk hq'.1 hq'.2 (by omega)
    rw [g4] at ht
    injection ht with ht
    refine ⟨ls ++ [l'], ⟨by simp [h1.1], ?_⟩, ?_, ?_, ?_⟩
    · intro i x y hx hy
      have hlen := h1.1
      rcases Nat.lt_trichotomy i ss.length with hi | hi | hi
      · rw [List.getElem?_append_left hi] at hx
        rw [List.getElem?_append_left (by rw [← h1.1]; exact hi)] at hy
        exact h1.2 i x y hx hy
      · rw [List.getElem?_append_right (by omega)] at hx hy
        rw [h1.1] at hi
        rw [show i - ss.length = 0 by have := h1.1; omega] at hx
        rw [show i - ls.length = 0 by omega] at hy
        simp at hx hy
        subst hx hy
        exact g1
      · rw [List.getElem?_append_right (by omega)] at hx
        obtain ⟨j, hj⟩ : ∃ j, i - ss.length = j + 1 := ⟨i - ss.length - 1, by omega⟩
        rw [hj] at hx; simp at hx
    · rw [List.flatten_append, List.flatten_cons, List.flatten_nil, List.append_nil]; exact ht.symm
    · rw [List.flatten_append]; simpa using g2
    · rw [List.flatten_append, List.flatten_cons, List.flatten_nil, List.append_nil, List.length_append]; omega

variable (X)

/-- A RocksDB database that is opened, used by overlapping calls (which are independent, as far as the calls in `P` are concerned, and these include all that may
write), dies
at any moment and is opened again, any number of times: every time it holds the effect of whole calls, session by
session those that survived it – all that returned, in a compatible order, if only the process died, and those up to some
point if power was lost. Hypotheses: all values can be read back, and there are fewer than `2^64` calls. -/
theorem C57_rocks (P : Op → Prop) (hP : ∀ op, op.isWrite = true → P op) (ss : List Session) (s : Rocks) (hl : RocksLife X ss s)
    (hq : ∀ x ∈ ss, Apart P x.h ∧ OkCalls (CanRead X) x.h) (hn : lifeLength ss < 2 ^ 64) :
    ∃ ls : List (List (IdentOrder × Op)), Matched (Survives X P) ss ls ∧ s = (rocksStore X).run ls.flatten Rocks.init ∧
      (rocksStore X).Reach s := by
  obtain ⟨ls, h1, h2, h3, _⟩ := life_state hP hl hq hn
  exact ⟨ls, h1, h2, ⟨_, h2, rfl, h3⟩⟩

/-- And after each session it can be opened again. -/
theorem C57_rocks_starts (P : Op → Prop) (hP : ∀ op, op.isWrite = true → P op) (ss : List Session) (s : Rocks)
    (hl : RocksLife X ss s) (h : List Ev) (S : Conc) (k : Nat) (hx : Exec X s h S) (hk : k ≤ S.log.length)
    (hq : ∀ x ∈ ss ++ [⟨s, h, S, k⟩], Apart P x.h ∧ OkCalls (CanRead X) x.h)
    (hn : lifeLength (ss ++ [⟨s, h, S, k⟩]) < 2 ^ 64) :
    ∃ t, RocksLife X (ss ++ [⟨s, h, S, k⟩]) t := by
  have e : lifeLength (ss ++ [⟨s, h, S, k⟩]) = lifeLength ss + h.length := by simp [lifeLength]
  rw [e] at hn
  obtain ⟨ls, h1, h2, h3, h4⟩ := life_state hP hl (fun x hx => hq x (List.mem_append_left _ hx)) (by omega)
  have hq' := hq ⟨s, h, S, k⟩ (by simp)
  have hx' := hx
  subst h2
  obtain ⟨l', _, _, _, g4⟩ := session_end hP h3 hx' hk hq'.1 hq'.2 (by omega)
  exact ⟨_, .again hl hx hk g4⟩

/-- A life of two sessions: in the first a vertex is created and the process dies while another creation is under way; in
the second a query of all vertices is made. -/
example : ∃ ss s, RocksLife X ss s ∧ ss.length = 2 ∧ lifeLength ss = 4 ∧
    (∀ x ∈ ss, Apart Counts x.h ∧ OkCalls (CanRead X) x.h) := by
  have hP : ∀ op : Op, op.isWrite = true → Counts op := fun _ h => Or.inl h
  have hv : (newDb none).2 = .ok Rocks.init := rfl
  have e := Exec.nil (X := X) (s := Rocks.init)
  have e := e.snoc (.call _ 0 .sorted (.createVertex ⟨W.u 1, W.t⟩) rfl)
  have e := e.snoc (.get _ 0 _ _ _ rfl)
  have e := e.snoc (.write _ 0 _ _ rfl)
  have e := e.snoc (.ret _ 0 _ rfl (by simp [Conc.init]) (by simp [Conc.init]))
  have e := e.snoc (.call _ 1 .sorted (.createVertex ⟨W.u 2, W.t⟩) rfl)
  have l1 := RocksLife.new (X := X) hv
  have q1 : SeqWrites [.call 0 (.createVertex ⟨W.u 1, W.t⟩), .ret 0 (.ok (.bool true)),
      .call 1 (.createVertex ⟨W.u 2, W.t⟩)] := by
    intro a b c op he hw c' op' hm hw'
    rcases a with _ | ⟨x1, _ | ⟨x2, _ | ⟨x3, a⟩⟩⟩
    · cases hm
    · simp at he
    · simp at he
      obtain ⟨rfl, rfl, _⟩ := he
      simp at hm
      obtain ⟨rfl, rfl⟩ := hm
      exact ⟨.ok (.bool true), by simp⟩
    · simp at he
  have q2 : SeqWrites [.call 0 (.get .allVertex)] := by
    intro a b c op he hw c' op' hm hw'
    rcases a with _ | ⟨x1, a⟩
    · cases hm
    · simp at he
  have o1 : OkCalls (CanRead X) [.call 0 (.createVertex ⟨W.u 1, W.t⟩), .ret 0 (.ok (.bool true)),
      .call 1 (.createVertex ⟨W.u 2, W.t⟩)] := by
    intro c op hm
    simp at hm
    rcases hm with ⟨_, rfl⟩ | ⟨_, rfl⟩ <;> trivial
  have o2 : OkCalls (CanRead X) [.call 0 (.get .allVertex)] := by
    intro c op hm
    simp at hm
    obtain ⟨_, rfl⟩ := hm
    trivial
  obtain ⟨t, l2⟩ := C57_rocks_starts X Counts hP [] _ l1 _ _ 1 e (by exact Nat.le_refl _)
    (fun x hx => by simp at hx; subst hx; exact ⟨q1.apart, o1⟩)
    (Nat.lt_of_le_of_lt (show _ ≤ 3 from Nat.le_refl _) (by decide))
  have f := Exec.nil (X := X) (s := t)
  have f := f.snoc (.call _ 0 .sorted (.get .allVertex) rfl)
  obtain ⟨t', l3⟩ := C57_rocks_starts X Counts hP _ _ l2 _ _ 0 f (Nat.zero_le _)
    (fun x hx => by
      simp at hx
      rcases hx with rfl | rfl
      · exact ⟨q1.apart, o1⟩
      · exact ⟨q2.apart, o2⟩)
    (Nat.lt_of_le_of_lt (show _ ≤ 4 from Nat.le_refl _) (by decide))
  refine ⟨_, t', l3, rfl, rfl, fun x hx => ?_⟩
  simp at hx
  rcases hx with rfl | rfl
  · exact ⟨q1.apart, o1⟩
  · exact ⟨q2.apart, o2⟩

end IndraDB
