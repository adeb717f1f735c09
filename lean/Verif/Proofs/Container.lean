import Verif.Model.Memory
/-
The memory datastore's index containers (`HashMap<Json, HashSet<IndexedPropertyMember>>`).
-/
set_option linter.unusedSimpArgs false
set_option linter.unusedSectionVars false
namespace IndraDB

theorem HashEq.same_congr (K : HashEq) {a b : Json} (h : K.same a b = true) (c : Json) : K.same a c = K.same b c := by
  cases h1 : K.same a c with
  | true => exact (K.trans _ _ _ (K.symm _ _ h) h1).symm
  | false =>
    cases h2 : K.same b c with
    | false => rfl
    | true => rw [K.trans _ _ _ h h2] at h1; exact absurd h1 (by simp)

theorem HashEq.same_comm (K : HashEq) (a b : Json) : K.same a b = K.same b a := by
  cases h : K.same a b with
  | true => exact (K.symm _ _ h).symm
  | false =>
    cases h2 : K.same b a with
    | false => rfl
    | true => rw [K.symm _ _ h2] at h; exact absurd h (by simp)

/-- A fold of additions. -/
theorem contains_foldl_add {κ : Type} [Order κ] [DecidableEq κ] (l : List κ) (s : SSet κ) (x : κ) :
    SMap.contains (l.foldl (fun (s : SSet κ) k => s.add k) s) x = (SMap.contains s x || decide (x ∈ l)) := by
  induction l generalizing s with
  | nil => simp
  | cons a r ih =>
    rw [List.foldl_cons, ih, SSet.contains_add]
    by_cases h1 : x = a <;> by_cases h2 : x ∈ r <;> simp [h1, h2]

namespace Container
variable (K : HashEq)

/-- Is `mem` listed under the value `v`? -/
def idx (F : Finder) (c : Container) (v : Json) (mem : Member) : Bool :=
  match c.find F v with
  | some s => s.contains mem
  | none => false

/-- Is `mem` listed under some value? -/
def any (c : Container) (mem : Member) : Bool := List.any c (fun e => e.2.contains mem)

/-- No two entries are found by the same lookup. -/
def Distinct (c : Container) : Prop := List.Pairwise (fun a b => K.same a.1 b.1 = false) c

variable {K}

theorem find_nil (w : Json) : find K [] w = none := rfl

theorem find_cons (e : Json × SSet Member) (c : Container) (w : Json) :
    find K (e :: c) w = if K.same e.1 w then some e.2 else find K c w := by
  unfold find HashEq.finder
  dsimp only
  rw [List.findIdx?_cons]
  cases K.same e.1 w with
  | true => simp
  | false =>
    rw [if_neg (by simp), if_neg (by simp)]
    cases List.findIdx? (fun e => K.same e.1 w) c <;> simp

theorem update_nil (v : Json) (f : SSet Member → SSet Member) : update K v f [] = [] := rfl

theorem upsert_nil (v : Json) (f : SSet Member → SSet Member) : upsert K v f [] = [(v, f SMap.empty)] := rfl

theorem update_cons (v : Json) (f : SSet Member → SSet Member) (e : Json × SSet Member) (r : Container) :
    update K v f (e :: r) = if K.same e.1 v then (e.1, f e.2) :: r else e :: update K v f r := by
  unfold update HashEq.finder
  dsimp only
  rw [List.findIdx?_cons]
  cases K.same e.1 v with
  | true => simp
  | false =>
    rw [if_neg (by simp), if_neg (by simp)]
    cases List.findIdx? (fun e => K.same e.1 v) r <;> simp

theorem upsert_cons (v : Json) (f : SSet Member → SSet Member) (e : Json × SSet Member) (r : Container) :
    upsert K v f (e :: r) = if K.same e.1 v then (e.1, f e.2) :: r else e :: upsert K v f r := by
  unfold upsert HashEq.finder
  dsimp only
  rw [List.findIdx?_cons]
  cases K.same e.1 v with
  | true => simp
  | false =>
    rw [if_neg (by simp), if_neg (by simp)]
    cases List.findIdx? (fun e => K.same e.1 v) r <;> simp

/-- The entry found is the first one whose key is the same. -/
theorem find_eq (c : Container) (v : Json) : find K c v = (List.find? (fun e => K.same e.1 v) c).map (·.2) := by
  induction c with
  | nil => rfl
  | cons e r ih =>
    rw [find_cons, List.find?_cons, ih]
    cases K.same e.1 v <;> simp

theorem find_upsert (c : Container) (v w : Json) (f : SSet Member → SSet Member) :
    find K (upsert K v f c) w = if K.same v w then some (f ((find K c v).getD SMap.empty)) else find K c w := by
  induction c with
  | nil => rw [upsert_nil, find_cons]; simp [find_nil]
  | cons e r ih =>
    rw [upsert_cons]
    by_cases h : K.same e.1 v = true
    · rw [if_pos h, find_cons, find_cons, find_cons]
      rw [K.same_congr h w, h]
      cases K.same v w <;> simp
    · rw [if_neg h, find_cons, ih, find_cons (w := v), find_cons (w := w)]
      rw [if_neg h]
      by_cases h2 : K.same v w = true
      · have : K.same e.1 w = false := by
          cases h3 : K.same e.1 w with
          | false => rfl
          | true => exact absurd (K.trans _ _ _ h3 (K.symm _ _ h2)) h
        rw [this]; simp [h2]
      · rw [if_neg h2, if_neg h2]

theorem find_update (c : Container) (v w : Json) (f : SSet Member → SSet Member) :
    find K (update K v f c) w = if K.same v w then (find K c w).map f else find K c w := by
  induction c with
  | nil => simp [update_nil, find_nil]
  | cons e r ih =>
    rw [update_cons]
    by_cases h : K.same e.1 v = true
    · rw [if_pos h, find_cons, find_cons, K.same_congr h w]
      cases K.same v w <;> simp
    · rw [if_neg h, find_cons, ih, find_cons]
      by_cases h2 : K.same v w = true
      · have : K.same e.1 w = false := by
          cases h3 : K.same e.1 w with
          | false => rfl
          | true => exact absurd (K.trans _ _ _ h3 (K.symm _ _ h2)) h
        rw [this]; simp [h2]
      · rw [if_neg h2, if_neg h2]

theorem idx_congr (c : Container) {v w : Json} (h : K.same v w = true) (x : Member) : c.idx K v x = c.idx K w x := by
  have : c.find K v = c.find K w := by
    rw [find_eq, find_eq]
    congr 1
    apply congrFun; congr 1
    funext e
    rw [K.same_comm e.1 v, K.same_comm e.1 w, K.same_congr h]
  unfold idx; rw [this]

theorem idx_upsert (c : Container) (v w : Json) (mems : List Member) (x : Member) :
    (c.upsert K v (fun s => mems.foldl (fun s mem => s.add mem) s)).idx K w x
      = (c.idx K w x || (K.same v w && decide (x ∈ mems))) := by
  unfold idx
  rw [find_upsert]
  by_cases h : K.same v w = true
  · have hc := idx_congr c h x
    unfold idx at hc
    rw [if_pos h, ← hc, h]
    simp only [contains_foldl_add]
    cases c.find K v <;> rw [Bool.eq_iff_iff] <;> simp
  · rw [if_neg h]; simp [h]

theorem idx_update (c : Container) (v w : Json) (mem x : Member) :
    (c.update K v (fun s => s.erase mem)).idx K w x = (c.idx K w x && !(K.same v w && decide (x = mem))) := by
  unfold idx
  rw [find_update]
  by_cases h : K.same v w = true
  · rw [if_pos h, h]
    cases c.find K w with
    | none => simp
    | some s => simp only [Option.map, SSet.contains_erase]; by_cases hx : x = mem <;> simp [hx]
  · rw [if_neg h]; simp [h]

theorem keys_upsert (c : Container) (v : Json) (f : SSet Member → SSet Member) (e : Json × SSet Member)
    (h : e ∈ c.upsert K v f) : e.1 = v ∨ ∃ e' ∈ c, e'.1 = e.1 := by
  induction c with
  | nil => simp [upsert_nil] at h; left; rw [h]
  | cons a r ih =>
    rw [upsert_cons] at h
    split at h
    · rcases List.mem_cons.1 h with rfl | h
      · right; exact ⟨a, by simp, rfl⟩
      · right; exact ⟨e, by simp [h], rfl⟩
    · rcases List.mem_cons.1 h with rfl | h
      · right; exact ⟨e, by simp, rfl⟩
      · rcases ih h with h | ⟨e', he', h⟩
        · exact Or.inl h
        · right; exact ⟨e', by simp [he'], h⟩

theorem distinct_upsert {c : Container} (hd : c.Distinct K) (v : Json) (f : SSet Member → SSet Member) :
    (c.upsert K v f).Distinct K := by
  induction c with
  | nil => simp [upsert_nil, Distinct]
  | cons a r ih =>
    unfold Distinct at hd ih ⊢
    rw [List.pairwise_cons] at hd
    rw [upsert_cons]
    by_cases h : K.same a.1 v = true
    · rw [if_pos h, List.pairwise_cons]; exact hd
    · rw [if_neg h, List.pairwise_cons]
      refine ⟨?_, ih hd.2⟩
      intro e he
      rcases keys_upsert r v f e he with h2 | ⟨e', he', h2⟩
      · rw [h2]; simpa using h
      · rw [← h2]; exact hd.1 e' he'

theorem keys_update (c : Container) (v : Json) (f : SSet Member → SSet Member) (e : Json × SSet Member)
    (h : e ∈ c.update K v f) : ∃ e' ∈ c, e'.1 = e.1 := by
  induction c with
  | nil => simp [update_nil] at h
  | cons a r ih =>
    rw [update_cons] at h
    split at h
    · rcases List.mem_cons.1 h with rfl | h
      · exact ⟨a, by simp, rfl⟩
      · exact ⟨e, by simp [h], rfl⟩
    · rcases List.mem_cons.1 h with rfl | h
      · exact ⟨e, by simp, rfl⟩
      · obtain ⟨e', he', h⟩ := ih h
        exact ⟨e', by simp [he'], h⟩

theorem distinct_update {c : Container} (hd : c.Distinct K) (v : Json) (f : SSet Member → SSet Member) :
    (c.update K v f).Distinct K := by
  induction c with
  | nil => simp [update_nil, Distinct]
  | cons a r ih =>
    unfold Distinct at hd ih ⊢
    rw [List.pairwise_cons] at hd
    rw [update_cons]
    by_cases h : K.same a.1 v = true
    · rw [if_pos h, List.pairwise_cons]; exact hd
    · rw [if_neg h, List.pairwise_cons]
      refine ⟨?_, ih hd.2⟩
      intro e he
      obtain ⟨e', he', h2⟩ := keys_update r v f e he
      rw [← h2]; exact hd.1 e' he'

/-- In a distinct container every entry is found by its own key. -/
theorem idx_of_mem {c : Container} (hd : c.Distinct K) {e : Json × SSet Member} (he : e ∈ c) (w : Json) (x : Member)
    (hs : K.same e.1 w = true) : c.idx K w x = e.2.contains x := by
  induction c with
  | nil => simp at he
  | cons a r ih =>
    unfold Distinct at hd
    rw [List.pairwise_cons] at hd
    unfold idx
    rw [find_cons]
    rcases List.mem_cons.1 he with rfl | he
    · rw [if_pos hs]
    · have : K.same a.1 w = false := by
        cases h3 : K.same a.1 w with
        | false => rfl
        | true =>
          have h4 := hd.1 e he
          rw [K.trans _ _ _ h3 (K.symm _ _ hs)] at h4; exact absurd h4 (by simp)
      rw [this]
      simp only [Bool.false_eq_true, if_false]
      exact ih hd.2 he

theorem any_iff {c : Container} (hd : c.Distinct K) (x : Member) : c.any x = true ↔ ∃ v, c.idx K v x = true := by
  unfold any
  rw [List.any_eq_true]
  constructor
  · rintro ⟨e, he, h⟩
    exact ⟨e.1, by rw [idx_of_mem hd he _ x (K.refl _)]; exact h⟩
  · rintro ⟨v, h⟩
    unfold idx at h; rw [find_eq] at h
    cases hf : List.find? (fun e => K.same e.1 v) c with
    | none => rw [hf] at h; simp at h
    | some e => rw [hf] at h; exact ⟨e, List.mem_of_find?_eq_some hf, by simpa using h⟩

end Container

namespace Mem
open Container
variable {K : HashEq}

theorem contains_containerIds (c : Container) (x : Uuid) :
    (containerIds c).contains x = c.any (.inl x) := by
  unfold containerIds
  have inner : ∀ (l : List Member) (acc : SSet Uuid),
      SMap.contains (l.foldl (fun (acc : SSet Uuid) mem => match mem with
        | Sum.inl id => acc.add id
        | Sum.inr _ => acc) acc) x = (SMap.contains acc x || decide ((Sum.inl x : Member) ∈ l)) := by
    intro l
    induction l with
    | nil => simp
    | cons a r ih =>
      intro acc
      rw [List.foldl_cons, ih]
      cases a with
      | inl id =>
        simp only [SSet.contains_add]
        by_cases h1 : x = id <;> by_cases h2 : (Sum.inl x : Member) ∈ r <;> simp [h1, h2]
      | inr e => simp
  have outer : ∀ (c : Container) (acc : SSet Uuid),
      SMap.contains (c.foldl (fun acc e => e.2.elems.foldl (fun (acc : SSet Uuid) mem => match mem with
        | Sum.inl id => acc.add id
        | Sum.inr _ => acc) acc) acc) x = (SMap.contains acc x || c.any (.inl x)) := by
    intro c
    induction c with
    | nil => simp [Container.any]
    | cons e r ih =>
      intro acc
      rw [List.foldl_cons, ih, inner]
      simp only [Container.any, List.any_cons]
      have : decide ((Sum.inl x : Member) ∈ e.2.elems) = SMap.contains e.2 (Sum.inl x) := by
        rw [Bool.eq_iff_iff]; simp [SSet.mem_elems]
      rw [this, Bool.or_assoc]
  exact (outer c _).trans (by simp)

theorem contains_containerEdges (c : Container) (x : Edge) :
    (containerEdges c).contains x = c.any (.inr x) := by
  unfold containerEdges
  have inner : ∀ (l : List Member) (acc : SSet Edge),
      SMap.contains (l.foldl (fun (acc : SSet Edge) mem => match mem with
        | Sum.inr e => acc.add e
        | Sum.inl _ => acc) acc) x = (SMap.contains acc x || decide ((Sum.inr x : Member) ∈ l)) := by
    intro l
    induction l with
    | nil => simp
    | cons a r ih =>
      intro acc
      rw [List.foldl_cons, ih]
      cases a with
      | inr id =>
        simp only [SSet.contains_add]
        by_cases h1 : x = id <;> by_cases h2 : (Sum.inr x : Member) ∈ r <;> simp [h1, h2]
      | inl e => simp
  have outer : ∀ (c : Container) (acc : SSet Edge),
      SMap.contains (c.foldl (fun acc e => e.2.elems.foldl (fun (acc : SSet Edge) mem => match mem with
        | Sum.inr e => acc.add e
        | Sum.inl _ => acc) acc) acc) x = (SMap.contains acc x || c.any (.inr x)) := by
    intro c
    induction c with
    | nil => simp [Container.any]
    | cons e r ih =>
      intro acc
      rw [List.foldl_cons, ih, inner]
      simp only [Container.any, List.any_cons]
      have : decide ((Sum.inr x : Member) ∈ e.2.elems) = SMap.contains e.2 (Sum.inr x) := by
        rw [Bool.eq_iff_iff]; simp [SSet.mem_elems]
      rw [this, Bool.or_assoc]
  exact (outer c _).trans (by simp)

/-- The merge adds exactly the new entries. -/
theorem idx_mergeContainer (new : Container) : ∀ (old : Container) (w : Json) (x : Member),
    (mergeContainer K new old).idx K w x = (old.idx K w x || List.any new (fun e => K.same e.1 w && e.2.contains x)) := by
  unfold mergeContainer
  induction new with
  | nil => intros; simp
  | cons e r ih =>
    intro old w x
    rw [List.foldl_cons, ih, idx_upsert, List.any_cons]
    have : decide (x ∈ e.2.elems) = SMap.contains e.2 x := by
      rw [Bool.eq_iff_iff]; simp [SSet.mem_elems]
    rw [this, Bool.or_assoc]

theorem distinct_mergeContainer (new : Container) : ∀ (old : Container), old.Distinct K →
    (mergeContainer K new old).Distinct K := by
  unfold mergeContainer
  induction new with
  | nil => intro old h; exact h
  | cons e r ih => intro old h; rw [List.foldl_cons]; exact ih _ (distinct_upsert h _ _)

theorem any_same_iff {new : Container} (hd : new.Distinct K) (w : Json) (x : Member) :
    List.any new (fun e => K.same e.1 w && e.2.contains x) = new.idx K w x := by
  rw [Bool.eq_iff_iff, List.any_eq_true]
  constructor
  · rintro ⟨e, he, h⟩
    rw [Bool.and_eq_true] at h
    rw [idx_of_mem hd he w x h.1]; exact h.2
  · intro h
    unfold idx at h; rw [find_eq] at h
    cases hf : List.find? (fun e => K.same e.1 w) new with
    | none => rw [hf] at h; simp at h
    | some e =>
      rw [hf] at h
      refine ⟨e, List.mem_of_find?_eq_some hf, ?_⟩
      have := List.find?_some hf
      rw [Bool.and_eq_true]
      exact ⟨this, by simpa using h⟩

theorem vertexIndexEntries_spec (name : Identifier) (m : Mem) (c : Container) (hd : c.Distinct K) :
    (vertexIndexEntries K name m c).Distinct K ∧ ∀ w x, (vertexIndexEntries K name m c).idx K w x = true ↔
      c.idx K w x = true ∨ ∃ i, x = .inl i ∧ m.vertices.contains i = true ∧
        ∃ v, m.vertexProperties.get (i, name) = some v ∧ K.same v w = true := by
  unfold vertexIndexEntries
  have key : ∀ (l : List (Uuid × Identifier)) (c : Container), c.Distinct K →
      (l.foldl (fun c e => match m.vertexProperties.get (e.1, name) with
        | some value => c.upsert K value (fun s => s.add (.inl e.1))
        | none => c) c).Distinct K ∧ ∀ w x, (l.foldl (fun c e => match m.vertexProperties.get (e.1, name) with
        | some value => c.upsert K value (fun s => s.add (.inl e.1))
        | none => c) c).idx K w x = true ↔
      c.idx K w x = true ∨ ∃ i, x = .inl i ∧ i ∈ l.map (·.1) ∧
        ∃ v, m.vertexProperties.get (i, name) = some v ∧ K.same v w = true := by
    intro l
    induction l with
    | nil => intro c hd; simp [hd]
    | cons e r ih =>
      intro c hd
      rw [List.foldl_cons]
      cases hp : m.vertexProperties.get (e.1, name) with
      | none =>
        simp only
        obtain ⟨h1, h2⟩ := ih c hd
        refine ⟨h1, fun w x => ?_⟩
        rw [h2, List.map_cons]
        constructor
        · rintro (h | ⟨i, hx, hi, h⟩)
          · exact Or.inl h
          · exact Or.inr ⟨i, hx, by simp [hi], h⟩
        · rintro (h | ⟨i, hx, hi, v, hv, h⟩)
          · exact Or.inl h
          · rcases List.mem_cons.1 hi with rfl | hi
            · rw [hp] at hv; exact absurd hv (by simp)
            · exact Or.inr ⟨i, hx, hi, v, hv, h⟩
      | some value =>
        simp only
        obtain ⟨h1, h2⟩ := ih (c.upsert K value (fun s => s.add (.inl e.1))) (distinct_upsert hd _ _)
        refine ⟨h1, fun w x => ?_⟩
        rw [h2, List.map_cons]
        have hu := idx_upsert (K := K) c value w [.inl e.1] x
        simp only [List.foldl_cons, List.foldl_nil] at hu
        rw [hu]
        simp only [Bool.or_eq_true, Bool.and_eq_true, decide_eq_true_eq, List.mem_singleton]
        constructor
        · rintro ((h | ⟨h, rfl⟩) | ⟨i, hx, hi, h⟩)
          · exact Or.inl h
          · exact Or.inr ⟨e.1, rfl, by simp, value, hp, h⟩
          · exact Or.inr ⟨i, hx, by simp [hi], h⟩
        · rintro (h | ⟨i, hx, hi, v, hv, h⟩)
          · exact Or.inl (Or.inl h)
          · rcases List.mem_cons.1 hi with rfl | hi
            · rw [hp] at hv; cases hv; exact Or.inl (Or.inr ⟨h, hx⟩)
            · exact Or.inr ⟨i, hx, hi, v, hv, h⟩
  obtain ⟨h1, h2⟩ := key m.vertices.toList c hd
  refine ⟨h1, fun w x => (h2 w x).trans ?_⟩
  have hm : ∀ i, i ∈ m.vertices.toList.map (·.1) ↔ m.vertices.contains i = true := by
    intro i
    rw [SMap.contains_iff, List.mem_map]
    constructor
    · rintro ⟨e, he, rfl⟩; exact ⟨e.2, SMap.mem_toList'.1 he⟩
    · rintro ⟨v, hv⟩; exact ⟨(i, v), SMap.mem_toList.2 hv, rfl⟩
  simp only [hm]

theorem edgeIndexEntries_spec (name : Identifier) (m : Mem) (c : Container) (hd : c.Distinct K) :
    (edgeIndexEntries K name m c).Distinct K ∧ ∀ w x, (edgeIndexEntries K name m c).idx K w x = true ↔
      c.idx K w x = true ∨ ∃ i, x = .inr i ∧ m.edges.contains i = true ∧
        ∃ v, m.edgeProperties.get (i, name) = some v ∧ K.same v w = true := by
  unfold edgeIndexEntries
  have key : ∀ (l : List Edge) (c : Container), c.Distinct K →
      (l.foldl (fun c e => match m.edgeProperties.get (e, name) with
        | some value => c.upsert K value (fun s => s.add (.inr e))
        | none => c) c).Distinct K ∧ ∀ w x, (l.foldl (fun c e => match m.edgeProperties.get (e, name) with
        | some value => c.upsert K value (fun s => s.add (.inr e))
        | none => c) c).idx K w x = true ↔
      c.idx K w x = true ∨ ∃ i, x = .inr i ∧ i ∈ l ∧
        ∃ v, m.edgeProperties.get (i, name) = some v ∧ K.same v w = true := by
    intro l
    induction l with
    | nil => intro c hd; simp [hd]
    | cons e r ih =>
      intro c hd
      rw [List.foldl_cons]
      cases hp : m.edgeProperties.get (e, name) with
      | none =>
        simp only
        obtain ⟨h1, h2⟩ := ih c hd
        refine ⟨h1, fun w x => ?_⟩
        rw [h2]
        constructor
        · rintro (h | ⟨i, hx, hi, h⟩)
          · exact Or.inl h
          · exact Or.inr ⟨i, hx, by simp [hi], h⟩
        · rintro (h | ⟨i, hx, hi, v, hv, h⟩)
          · exact Or.inl h
          · rcases List.mem_cons.1 hi with rfl | hi
            · rw [hp] at hv; exact absurd hv (by simp)
            · exact Or.inr ⟨i, hx, hi, v, hv, h⟩
      | some value =>
        simp only
        obtain ⟨h1, h2⟩ := ih (c.upsert K value (fun s => s.add (.inr e))) (distinct_upsert hd _ _)
        refine ⟨h1, fun w x => ?_⟩
        rw [h2]
        have hu := idx_upsert (K := K) c value w [.inr e] x
        simp only [List.foldl_cons, List.foldl_nil] at hu
        rw [hu]
        simp only [Bool.or_eq_true, Bool.and_eq_true, decide_eq_true_eq, List.mem_singleton]
        constructor
        · rintro ((h | ⟨h, rfl⟩) | ⟨i, hx, hi, h⟩)
          · exact Or.inl h
          · exact Or.inr ⟨e, rfl, by simp, value, hp, h⟩
          · exact Or.inr ⟨i, hx, by simp [hi], h⟩
        · rintro (h | ⟨i, hx, hi, v, hv, h⟩)
          · exact Or.inl (Or.inl h)
          · rcases List.mem_cons.1 hi with rfl | hi
            · rw [hp] at hv; cases hv; exact Or.inl (Or.inr ⟨h, hx⟩)
            · exact Or.inr ⟨i, hx, hi, v, hv, h⟩
  obtain ⟨h1, h2⟩ := key m.edges.elems c hd
  refine ⟨h1, fun w x => (h2 w x).trans ?_⟩
  simp only [SSet.mem_elems]

end Mem
end IndraDB
