import Verif.Spec.Proto
/-
The conversions of the protobuf layer accept exactly the messages that mean something, and return what they mean.
-/
set_option linter.unusedSimpArgs false
namespace IndraDB

theorem conv_bind {α β : Type} (a : ProtoRes α) (f : α → ProtoRes β) (b : β) :
    (a >>= f) = .ok b ↔ ∃ x, a = .ok x ∧ f x = .ok b := by
  cases a with
  | error e => simp [bind, Except.bind]
  | ok x => simp [bind, Except.bind]

theorem conv_pure {α : Type} (a b : α) : (pure a : ProtoRes α) = .ok b ↔ a = b := by
  simp [pure, Except.pure]

theorem requiredField_iff {α : Type} (n : String) (o : Option α) (x : α) : requiredField n o = .ok x ↔ o = some x := by
  cases o <;> simp [requiredField]

theorem field_iff {α β : Type} {f : α → ProtoRes β} {R : α → β → Prop} (h : ∀ a b, f a = .ok b ↔ R a b) (n : String)
    (o : Option α) (b : β) : (∃ x, requiredField n o = .ok x ∧ f x = .ok b) ↔ Field R o b := by
  simp only [requiredField_iff, Field, h]

theorem convList_iff {α β : Type} {f : α → ProtoRes β} {R : α → β → Prop} (h : ∀ a b, f a = .ok b ↔ R a b) :
    ∀ l l', convList f l = .ok l' ↔ Repeated R l l'
  | [], l' => by
    simp only [convList]
    constructor
    · intro h; cases h; exact .nil
    · intro h; cases h; rfl
  | a :: r, l' => by
    simp only [convList, conv_bind, conv_pure, h, convList_iff h r]
    constructor
    · rintro ⟨b, hb, s, hs, rfl⟩; exact .cons hb hs
    · intro h; cases h with | cons h1 h2 => exact ⟨_, h1, _, h2, rfl⟩

theorem convOpt_iff {α β : Type} {f : α → ProtoRes β} {R : α → β → Prop} (h : ∀ a b, f a = .ok b ↔ R a b) :
    ∀ o o', convOpt f o = .ok o' ↔ OptField R o o'
  | none, o' => by
    simp only [convOpt]
    constructor
    · intro h; cases h; exact .none
    · intro h; cases h; rfl
  | some a, o' => by
    simp only [convOpt, conv_bind, conv_pure, h]
    constructor
    · rintro ⟨b, hb, rfl⟩; exact .some hb
    · intro h; cases h with | some h1 => exact ⟨_, h1, rfl⟩

theorem PUuid.conv_iff (m : PUuid) (u : Uuid) : m.conv = .ok u ↔ m.Means u := by
  unfold PUuid.conv PUuid.Means Uuid.ofBytes?
  split
  · rename_i v h
    split at h
    · cases h
      constructor
      · intro h; cases h; rfl
      · intro h; congr 1; exact Uuid.inj h
    · cases h
  · rename_i h
    split at h
    · cases h
    · rename_i h2
      constructor
      · intro h; cases h
      · intro h; exact absurd (h ▸ u.len) h2

section
variable (letter : Char → Bool) (J : JsonText)

theorem Identifier.new_iff (s : String) (i : Identifier) : Identifier.new letter s = .ok i ↔
    strBytes s = i.bytes ∧ ∀ c ∈ s.toList, c = '-' ∨ c = '_' ∨ letter c = true := by
  unfold Identifier.new
  split
  · rename_i h
    constructor
    · intro h; cases h
    · rintro ⟨h1, _⟩; have := i.len; rw [h1] at h; omega
  · split
    · rename_i h2
      constructor
      · intro h; cases h
      · rintro ⟨_, h3⟩
        exfalso
        rw [Bool.not_eq_true', List.all_eq_false] at h2
        obtain ⟨c, hc, h4⟩ := h2
        rcases h3 c hc with rfl | rfl | h5 <;> simp_all
    · rename_i h2
      simp only [Bool.not_eq_true', Bool.not_eq_false, List.all_eq_true] at h2
      constructor
      · intro h; cases h
        refine ⟨rfl, fun c hc => ?_⟩
        have := h2 c hc
        simpa [or_assoc] using this
      · rintro ⟨h1, _⟩; congr 1; exact Identifier.inj h1

theorem PIdentifier.conv_iff (m : PIdentifier) (i : Identifier) : m.conv letter = .ok i ↔ m.Means letter i := by
  unfold PIdentifier.conv PIdentifier.Means
  rw [← Identifier.new_iff]
  split
  · rename_i h; rw [h]; simp
  · rename_i h; rw [h]; simp

theorem PJson.conv_iff (m : PJson) (v : Json) : m.conv J = .ok v ↔ m.Means J v := by
  unfold PJson.conv PJson.Means
  split
  · rename_i h; rw [h]; simp
  · rename_i h; rw [h]; simp

theorem PEdge.conv_iff (m : PEdge) (e : Edge) : m.conv letter = .ok e ↔ m.Means letter e := by
  simp only [PEdge.conv, conv_bind, conv_pure]
  constructor
  · rintro ⟨a, h1, b, h2, c, h3, d, h4, f, h5, g, h6, rfl⟩
    rw [requiredField_iff] at h1 h3 h5
    exact ⟨⟨_, h1, (PUuid.conv_iff _ _).1 h2⟩, ⟨_, h3, (PIdentifier.conv_iff _ _ _).1 h4⟩,
      ⟨_, h5, (PUuid.conv_iff _ _).1 h6⟩⟩
  · rintro ⟨⟨a, h1, h2⟩, ⟨b, h3, h4⟩, ⟨c, h5, h6⟩⟩
    exact ⟨a, (requiredField_iff _ _ _).2 h1, _, (PUuid.conv_iff _ _).2 h2, b, (requiredField_iff _ _ _).2 h3, _,
      (PIdentifier.conv_iff _ _ _).2 h4, c, (requiredField_iff _ _ _).2 h5, _, (PUuid.conv_iff _ _).2 h6, rfl⟩

theorem PVertex.conv_iff (m : PVertex) (e : Vertex) : m.conv letter = .ok e ↔ m.Means letter e := by
  simp only [PVertex.conv, conv_bind, conv_pure]
  constructor
  · rintro ⟨a, h1, b, h2, c, h3, d, h4, rfl⟩
    rw [requiredField_iff] at h1 h3
    exact ⟨⟨_, h1, (PUuid.conv_iff _ _).1 h2⟩, ⟨_, h3, (PIdentifier.conv_iff _ _ _).1 h4⟩⟩
  · rintro ⟨⟨a, h1, h2⟩, ⟨b, h3, h4⟩⟩
    exact ⟨a, (requiredField_iff _ _ _).2 h1, _, (PUuid.conv_iff _ _).2 h2, b, (requiredField_iff _ _ _).2 h3, _,
      (PIdentifier.conv_iff _ _ _).2 h4, rfl⟩

theorem PQuery.conv_means : ∀ (m : PQuery) (q : Query), m.conv letter J = .ok q → m.Means letter J q
  | .unset, q, h => by simp [PQuery.conv] at h
  | .allVertex, q, h => by simp [PQuery.conv] at h; subst h; exact .allVertex
  | .allEdge, q, h => by simp [PQuery.conv] at h; subst h; exact .allEdge
  | .rangeVertex limit t s, q, h => by
    simp only [PQuery.conv, conv_bind, conv_pure] at h
    obtain ⟨a, h1, b, h2, rfl⟩ := h
    exact .rangeVertex ((convOpt_iff (PIdentifier.conv_iff letter) _ _).1 h1) ((convOpt_iff PUuid.conv_iff _ _).1 h2)
  | .specificVertex l, q, h => by
    simp only [PQuery.conv, conv_bind, conv_pure] at h
    obtain ⟨a, h1, rfl⟩ := h
    exact .specificVertex ((convList_iff PUuid.conv_iff _ _).1 h1)
  | .specificEdge l, q, h => by
    simp only [PQuery.conv, conv_bind, conv_pure] at h
    obtain ⟨a, h1, rfl⟩ := h
    exact .specificEdge ((convList_iff (PEdge.conv_iff letter) _ _).1 h1)
  | .vertexWithPropertyPresence n, q, h => by
    simp only [PQuery.conv, conv_bind, conv_pure, requiredField_iff] at h
    obtain ⟨a, h1, b, h2, rfl⟩ := h
    exact .vertexWithPropertyPresence ⟨_, h1, (PIdentifier.conv_iff _ _ _).1 h2⟩
  | .edgeWithPropertyPresence n, q, h => by
    simp only [PQuery.conv, conv_bind, conv_pure, requiredField_iff] at h
    obtain ⟨a, h1, b, h2, rfl⟩ := h
    exact .edgeWithPropertyPresence ⟨_, h1, (PIdentifier.conv_iff _ _ _).1 h2⟩
  | .vertexWithPropertyValue n v, q, h => by
    simp only [PQuery.conv, conv_bind, conv_pure, requiredField_iff] at h
    obtain ⟨a, h1, b, h2, c, h3, d, h4, rfl⟩ := h
    exact .vertexWithPropertyValue ⟨_, h1, (PIdentifier.conv_iff _ _ _).1 h3⟩ ⟨_, h2, (PJson.conv_iff _ _ _).1 h4⟩
  | .edgeWithPropertyValue n v, q, h => by
    simp only [PQuery.conv, conv_bind, conv_pure, requiredField_iff] at h
    obtain ⟨a, h1, b, h2, c, h3, d, h4, rfl⟩ := h
    exact .edgeWithPropertyValue ⟨_, h1, (PIdentifier.conv_iff _ _ _).1 h3⟩ ⟨_, h2, (PJson.conv_iff _ _ _).1 h4⟩
  | .pipe none d l t, q, h => by
    simp only [PQuery.conv, conv_bind, conv_pure] at h
    obtain ⟨_, _, h⟩ := h; cases h
  | .pipe (some i) d l t, q, h => by
    simp only [PQuery.conv, conv_bind, conv_pure] at h
    obtain ⟨t', h1, i', h2, rfl⟩ := h
    have h3 := PQuery.conv_means i i' h2
    have hd : (PEdgeDirection.ofI32 d).conv = if d = 1 then .inbound else .outbound := by
      unfold PEdgeDirection.ofI32; split <;> rfl
    rw [hd]
    exact .pipe h3 ((convOpt_iff (PIdentifier.conv_iff letter) _ _).1 h1)
  | .pipeProperty none n, q, h => by simp [PQuery.conv] at h
  | .pipeProperty (some i) n, q, h => by
    simp only [PQuery.conv, conv_bind, conv_pure] at h
    obtain ⟨n', h1, i', h2, rfl⟩ := h
    exact .pipeProperty (PQuery.conv_means i i' h2) ((convOpt_iff (PIdentifier.conv_iff letter) _ _).1 h1)
  | .pipeWithPropertyPresence none n ex, q, h => by simp [PQuery.conv] at h
  | .pipeWithPropertyPresence (some i) n ex, q, h => by
    simp only [PQuery.conv, conv_bind, conv_pure, requiredField_iff] at h
    obtain ⟨n', h1, i', h2, n'', h3, rfl⟩ := h
    exact .pipeWithPropertyPresence (PQuery.conv_means i i' h2) ⟨_, h1, (PIdentifier.conv_iff _ _ _).1 h3⟩
  | .pipeWithPropertyValue none n v eq, q, h => by simp [PQuery.conv] at h
  | .pipeWithPropertyValue (some i) n v eq, q, h => by
    simp only [PQuery.conv, conv_bind, conv_pure, requiredField_iff] at h
    obtain ⟨n', h1, v', h2, i', h3, n'', h4, v'', h5, rfl⟩ := h
    exact .pipeWithPropertyValue (PQuery.conv_means i i' h3) ⟨_, h1, (PIdentifier.conv_iff _ _ _).1 h4⟩
      ⟨_, h2, (PJson.conv_iff _ _ _).1 h5⟩
  | .incl none, q, h => by simp [PQuery.conv] at h
  | .incl (some i), q, h => by
    simp only [PQuery.conv, conv_bind, conv_pure] at h
    obtain ⟨i', h1, rfl⟩ := h
    exact .incl (PQuery.conv_means i i' h1)
  | .count none, q, h => by simp [PQuery.conv] at h
  | .count (some i), q, h => by
    simp only [PQuery.conv, conv_bind, conv_pure] at h
    obtain ⟨i', h1, rfl⟩ := h
    exact .count (PQuery.conv_means i i' h1)

theorem PQuery.means_conv {m : PQuery} {q : Query} (h : m.Means letter J q) : m.conv letter J = .ok q := by
  induction h with
  | allVertex => rfl
  | allEdge => rfl
  | rangeVertex h1 h2 =>
    simp only [PQuery.conv, conv_bind, conv_pure]
    exact ⟨_, (convOpt_iff (PIdentifier.conv_iff letter) _ _).2 h1, _, (convOpt_iff PUuid.conv_iff _ _).2 h2, rfl⟩
  | specificVertex h =>
    simp only [PQuery.conv, conv_bind, conv_pure]
    exact ⟨_, (convList_iff PUuid.conv_iff _ _).2 h, rfl⟩
  | specificEdge h =>
    simp only [PQuery.conv, conv_bind, conv_pure]
    exact ⟨_, (convList_iff (PEdge.conv_iff letter) _ _).2 h, rfl⟩
  | vertexWithPropertyPresence h =>
    obtain ⟨x, h1, h2⟩ := h
    simp only [PQuery.conv, conv_bind, conv_pure, requiredField_iff]
    exact ⟨_, h1, _, (PIdentifier.conv_iff _ _ _).2 h2, rfl⟩
  | edgeWithPropertyPresence h =>
    obtain ⟨x, h1, h2⟩ := h
    simp only [PQuery.conv, conv_bind, conv_pure, requiredField_iff]
    exact ⟨_, h1, _, (PIdentifier.conv_iff _ _ _).2 h2, rfl⟩
  | vertexWithPropertyValue h h' =>
    obtain ⟨x, h1, h2⟩ := h
    obtain ⟨y, h3, h4⟩ := h'
    simp only [PQuery.conv, conv_bind, conv_pure, requiredField_iff]
    exact ⟨_, h1, _, h3, _, (PIdentifier.conv_iff _ _ _).2 h2, _, (PJson.conv_iff _ _ _).2 h4, rfl⟩
  | edgeWithPropertyValue h h' =>
    obtain ⟨x, h1, h2⟩ := h
    obtain ⟨y, h3, h4⟩ := h'
    simp only [PQuery.conv, conv_bind, conv_pure, requiredField_iff]
    exact ⟨_, h1, _, h3, _, (PIdentifier.conv_iff _ _ _).2 h2, _, (PJson.conv_iff _ _ _).2 h4, rfl⟩
  | @pipe i i' d limit t t' h h2 ih =>
    simp only [PQuery.conv, conv_bind, conv_pure]
    have hd : (PEdgeDirection.ofI32 d).conv = if d = 1 then .inbound else .outbound := by
      unfold PEdgeDirection.ofI32; split <;> rfl
    exact ⟨_, (convOpt_iff (PIdentifier.conv_iff letter) _ _).2 h2, _, ih, by rw [hd]⟩
  | pipeProperty h h2 ih =>
    simp only [PQuery.conv, conv_bind, conv_pure]
    exact ⟨_, (convOpt_iff (PIdentifier.conv_iff letter) _ _).2 h2, _, ih, rfl⟩
  | pipeWithPropertyPresence h h2 ih =>
    obtain ⟨x, h1, h2⟩ := h2
    simp only [PQuery.conv, conv_bind, conv_pure, requiredField_iff]
    exact ⟨_, h1, _, ih, _, (PIdentifier.conv_iff _ _ _).2 h2, rfl⟩
  | pipeWithPropertyValue h h2 h3 ih =>
    obtain ⟨x, h1, h2⟩ := h2
    obtain ⟨y, h3, h4⟩ := h3
    simp only [PQuery.conv, conv_bind, conv_pure, requiredField_iff]
    exact ⟨_, h1, _, h3, _, ih, _, (PIdentifier.conv_iff _ _ _).2 h2, _, (PJson.conv_iff _ _ _).2 h4, rfl⟩
  | incl h ih =>
    simp only [PQuery.conv, conv_bind, conv_pure]
    exact ⟨_, ih, rfl⟩
  | count h ih =>
    simp only [PQuery.conv, conv_bind, conv_pure]
    exact ⟨_, ih, rfl⟩

theorem PQuery.conv_iff (m : PQuery) (q : Query) : m.conv letter J = .ok q ↔ m.Means letter J q :=
  ⟨PQuery.conv_means letter J m q, PQuery.means_conv letter J⟩

theorem PNamedProperty.conv_iff (m : PNamedProperty) (p : NamedProperty) :
    m.conv letter J = .ok p ↔ m.Means letter J p := by
  simp only [PNamedProperty.conv, conv_bind, conv_pure, requiredField_iff]
  constructor
  · rintro ⟨a, h1, b, h2, c, h3, d, h4, rfl⟩
    exact ⟨⟨_, h1, (PIdentifier.conv_iff _ _ _).1 h2⟩, ⟨_, h3, (PJson.conv_iff _ _ _).1 h4⟩⟩
  · rintro ⟨⟨a, h1, h2⟩, ⟨b, h3, h4⟩⟩
    exact ⟨a, h1, _, (PIdentifier.conv_iff _ _ _).2 h2, b, h3, _, (PJson.conv_iff _ _ _).2 h4, rfl⟩

theorem PVertexProperty.conv_iff (m : PVertexProperty) (p : VertexProperty) : m.conv J = .ok p ↔ m.Means J p := by
  simp only [PVertexProperty.conv, conv_bind, conv_pure, requiredField_iff]
  constructor
  · rintro ⟨a, h1, b, h2, c, h3, d, h4, rfl⟩
    exact ⟨⟨_, h1, (PUuid.conv_iff _ _).1 h2⟩, ⟨_, h3, (PJson.conv_iff _ _ _).1 h4⟩⟩
  · rintro ⟨⟨a, h1, h2⟩, ⟨b, h3, h4⟩⟩
    exact ⟨a, h1, _, (PUuid.conv_iff _ _).2 h2, b, h3, _, (PJson.conv_iff _ _ _).2 h4, rfl⟩

theorem PEdgeProperty.conv_iff (m : PEdgeProperty) (p : EdgeProperty) :
    m.conv letter J = .ok p ↔ m.Means letter J p := by
  simp only [PEdgeProperty.conv, conv_bind, conv_pure, requiredField_iff]
  constructor
  · rintro ⟨a, h1, b, h2, c, h3, d, h4, rfl⟩
    exact ⟨⟨_, h1, (PEdge.conv_iff _ _ _).1 h2⟩, ⟨_, h3, (PJson.conv_iff _ _ _).1 h4⟩⟩
  · rintro ⟨⟨a, h1, h2⟩, ⟨b, h3, h4⟩⟩
    exact ⟨a, h1, _, (PEdge.conv_iff _ _ _).2 h2, b, h3, _, (PJson.conv_iff _ _ _).2 h4, rfl⟩

theorem PVertexProperties.conv_iff (m : PVertexProperties) (p : VertexProperties) :
    m.conv letter J = .ok p ↔ m.Means letter J p := by
  simp only [PVertexProperties.conv, conv_bind, conv_pure, requiredField_iff]
  constructor
  · rintro ⟨a, h1, b, h2, c, h3, rfl⟩
    exact ⟨⟨_, h1, (PVertex.conv_iff _ _ _).1 h2⟩, (convList_iff (PNamedProperty.conv_iff letter J) _ _).1 h3⟩
  · rintro ⟨⟨a, h1, h2⟩, h3⟩
    exact ⟨a, h1, _, (PVertex.conv_iff _ _ _).2 h2, _, (convList_iff (PNamedProperty.conv_iff letter J) _ _).2 h3, rfl⟩

theorem PEdgeProperties.conv_iff (m : PEdgeProperties) (p : EdgeProperties) :
    m.conv letter J = .ok p ↔ m.Means letter J p := by
  simp only [PEdgeProperties.conv, conv_bind, conv_pure, requiredField_iff]
  constructor
  · rintro ⟨a, h1, b, h2, c, h3, rfl⟩
    exact ⟨⟨_, h1, (PEdge.conv_iff _ _ _).1 h2⟩, (convList_iff (PNamedProperty.conv_iff letter J) _ _).1 h3⟩
  · rintro ⟨⟨a, h1, h2⟩, h3⟩
    exact ⟨a, h1, _, (PEdge.conv_iff _ _ _).2 h2, _, (convList_iff (PNamedProperty.conv_iff letter J) _ _).2 h3, rfl⟩

theorem POutput.conv_iff (m : POutput) (o : Output) : m.conv letter J = .ok o ↔ m.Means letter J o := by
  cases m with
  | unset => simp only [POutput.conv]; constructor <;> intro h <;> cases h
  | count n =>
    simp only [POutput.conv]
    constructor
    · intro h; cases h; exact .count
    · intro h; cases h; rfl
  | vertices l =>
    simp only [POutput.conv, conv_bind, conv_pure, convList_iff (PVertex.conv_iff letter)]
    constructor
    · rintro ⟨x, h, rfl⟩; exact .vertices h
    · intro h; cases h with | vertices h => exact ⟨_, h, rfl⟩
  | edges l =>
    simp only [POutput.conv, conv_bind, conv_pure, convList_iff (PEdge.conv_iff letter)]
    constructor
    · rintro ⟨x, h, rfl⟩; exact .edges h
    · intro h; cases h with | edges h => exact ⟨_, h, rfl⟩
  | vertexProperties l =>
    simp only [POutput.conv, conv_bind, conv_pure, convList_iff (PVertexProperties.conv_iff letter J)]
    constructor
    · rintro ⟨x, h, rfl⟩; exact .vertexProperties h
    · intro h; cases h with | vertexProperties h => exact ⟨_, h, rfl⟩
  | edgeProperties l =>
    simp only [POutput.conv, conv_bind, conv_pure, convList_iff (PEdgeProperties.conv_iff letter J)]
    constructor
    · rintro ⟨x, h, rfl⟩; exact .edgeProperties h
    · intro h; cases h with | edgeProperties h => exact ⟨_, h, rfl⟩

theorem PBulkInsertItem.conv_iff (m : PBulkInsertItem) (o : BulkInsertItem) :
    m.conv letter J = .ok o ↔ m.Means letter J o := by
  cases m with
  | unset => simp only [PBulkInsertItem.conv]; constructor <;> intro h <;> cases h
  | vertex v =>
    simp only [PBulkInsertItem.conv, conv_bind, conv_pure, PVertex.conv_iff]
    constructor
    · rintro ⟨x, h, rfl⟩; exact .vertex h
    · intro h; cases h with | vertex h => exact ⟨_, h, rfl⟩
  | edge v =>
    simp only [PBulkInsertItem.conv, conv_bind, conv_pure, PEdge.conv_iff]
    constructor
    · rintro ⟨x, h, rfl⟩; exact .edge h
    · intro h; cases h with | edge h => exact ⟨_, h, rfl⟩
  | vertexProperty i n v =>
    simp only [PBulkInsertItem.conv, conv_bind, conv_pure, requiredField_iff, PUuid.conv_iff, PIdentifier.conv_iff,
      PJson.conv_iff]
    constructor
    · rintro ⟨a, h1, b, h2, c, h3, d, h4, e, h5, f, h6, rfl⟩
      exact .vertexProperty ⟨_, h1, h2⟩ ⟨_, h3, h4⟩ ⟨_, h5, h6⟩
    · intro h
      cases h with
      | vertexProperty h1 h2 h3 =>
        obtain ⟨a, h1, h2'⟩ := h1
        obtain ⟨b, h3', h4⟩ := h2
        obtain ⟨c, h5, h6⟩ := h3
        exact ⟨_, h1, _, h2', _, h3', _, h4, _, h5, _, h6, rfl⟩
  | edgeProperty i n v =>
    simp only [PBulkInsertItem.conv, conv_bind, conv_pure, requiredField_iff, PEdge.conv_iff, PIdentifier.conv_iff,
      PJson.conv_iff]
    constructor
    · rintro ⟨a, h1, b, h2, c, h3, d, h4, e, h5, f, h6, rfl⟩
      exact .edgeProperty ⟨_, h1, h2⟩ ⟨_, h3, h4⟩ ⟨_, h5, h6⟩
    · intro h
      cases h with
      | edgeProperty h1 h2 h3 =>
        obtain ⟨a, h1, h2'⟩ := h1
        obtain ⟨b, h3', h4⟩ := h2
        obtain ⟨c, h5, h6⟩ := h3
        exact ⟨_, h1, _, h2', _, h3', _, h4, _, h5, _, h6, rfl⟩

theorem PIndexPropertyRequest.conv_iff (m : PIndexPropertyRequest) (i : Identifier) :
    m.conv letter = .ok i ↔ Field (PIdentifier.Means letter) m.name i := by
  simp only [PIndexPropertyRequest.conv, conv_bind]
  exact field_iff (PIdentifier.conv_iff letter) _ _ _

theorem PSetPropertiesRequest.conv_iff (m : PSetPropertiesRequest) (r : Query × Identifier × Json) :
    m.conv letter J = .ok r ↔ m.Means letter J r := by
  simp only [PSetPropertiesRequest.conv, conv_bind, conv_pure, requiredField_iff, PQuery.conv_iff, PIdentifier.conv_iff,
      PJson.conv_iff]
  constructor
  · rintro ⟨a, h1, b, h2, c, h3, d, h4, e, h5, f, h6, rfl⟩
    exact ⟨⟨_, h1, h2⟩, ⟨_, h3, h4⟩, ⟨_, h5, h6⟩⟩
  · obtain ⟨q, n, v⟩ := r
    rintro ⟨⟨a, h1, h2⟩, ⟨b, h3, h4⟩, ⟨c, h5, h6⟩⟩
    exact ⟨_, h1, _, h2, _, h3, _, h4, _, h5, _, h6, rfl⟩

/-! ### Messages made from values -/

theorem Uuid.toProto_means (u : Uuid) : u.toProto.Means u := rfl

theorem ident_str {s : String} {i : Identifier} (h : i.bytes = strBytes s) : i.toStr = s := by
  unfold Identifier.toStr
  rw [h]
  have : (⟨(strBytes s).toArray⟩ : ByteArray) = s.toUTF8 := by
    apply ByteArray.ext; simp [strBytes]
  rw [this]
  have : String.fromUTF8? s.toUTF8 = some s := by
    unfold String.fromUTF8?
    exact dif_pos s.isValidUTF8
  rw [this]; rfl

theorem Identifier.toProto_means {i : Identifier} (h : i.Valid letter) : i.toProto.Means letter i := by
  obtain ⟨s, h1, h2⟩ := h
  unfold PIdentifier.Means Identifier.toProto
  rw [ident_str h1]
  exact ⟨h1.symm, h2⟩

theorem PIdentifier.means_valid {m : PIdentifier} {i : Identifier} (h : m.Means letter i) : i.Valid letter :=
  ⟨m.value, h.1.symm, h.2⟩

theorem Json.toProto_means {v : Json} (h : J.Faithful v) : (v.toProto J).Means J v := h

theorem Edge.toProto_means {e : Edge} (h : e.t.Valid letter) : e.toProto.Means letter e :=
  ⟨⟨_, rfl, Uuid.toProto_means _⟩, ⟨_, rfl, Identifier.toProto_means letter h⟩, ⟨_, rfl, Uuid.toProto_means _⟩⟩

theorem Vertex.toProto_means {v : Vertex} (h : v.t.Valid letter) : v.toProto.Means letter v :=
  ⟨⟨_, rfl, Uuid.toProto_means _⟩, ⟨_, rfl, Identifier.toProto_means letter h⟩⟩

theorem repeated_map {α β : Type} {R : α → β → Prop} (f : β → α) : ∀ (l : List β), (∀ b ∈ l, R (f b) b) →
    Repeated R (l.map f) l
  | [], _ => .nil
  | b :: r, h => .cons (h b (by simp)) (repeated_map f r (fun x hx => h x (by simp [hx])))

theorem optField_map {α β : Type} {R : α → β → Prop} (f : β → α) : ∀ (o : Option β), (∀ b, o = some b → R (f b) b) →
    OptField R (o.map f) o
  | none, _ => .none
  | some b, h => .some (h b rfl)

theorem Query.toProto_means : ∀ (q : Query), q.All (·.Valid letter) J.Faithful → (q.toProto J).Means letter J q
  | .allVertex, _ => .allVertex
  | .allEdge, _ => .allEdge
  | .specificVertex l, _ => .specificVertex (repeated_map _ l (fun u _ => u.toProto_means))
  | .rangeVertex l t s, h => .rangeVertex (optField_map _ _ (fun i hi => Identifier.toProto_means letter (h i hi)))
      (optField_map _ _ (fun u _ => u.toProto_means))
  | .specificEdge l, h => .specificEdge (repeated_map _ l (fun e he => Edge.toProto_means letter (h e he)))
  | .vertexWithPropertyPresence n, h => .vertexWithPropertyPresence ⟨_, rfl, Identifier.toProto_means letter h⟩
  | .edgeWithPropertyPresence n, h => .edgeWithPropertyPresence ⟨_, rfl, Identifier.toProto_means letter h⟩
  | .vertexWithPropertyValue n v, h =>
    .vertexWithPropertyValue ⟨_, rfl, Identifier.toProto_means letter h.1⟩ ⟨_, rfl, Json.toProto_means J h.2⟩
  | .edgeWithPropertyValue n v, h =>
    .edgeWithPropertyValue ⟨_, rfl, Identifier.toProto_means letter h.1⟩ ⟨_, rfl, Json.toProto_means J h.2⟩
  | .pipe q d l t, h => by
    have := PQuery.Means.pipe (letter := letter) (J := J) (d := d.toProto.toI32) (limit := l)
      (Query.toProto_means q h.1) (optField_map Identifier.toProto t (fun i hi => Identifier.toProto_means letter (h.2 i hi)))
    have hd : (if d.toProto.toI32 = 1 then EdgeDirection.inbound else .outbound) = d := by cases d <;> rfl
    rw [hd] at this
    exact this
  | .pipeProperty q n, h => .pipeProperty (Query.toProto_means q h.1)
      (optField_map _ _ (fun i hi => Identifier.toProto_means letter (h.2 i hi)))
  | .pipeWithPropertyPresence q n ex, h => .pipeWithPropertyPresence (Query.toProto_means q h.1)
      ⟨_, rfl, Identifier.toProto_means letter h.2⟩
  | .pipeWithPropertyValue q n v eq, h => .pipeWithPropertyValue (Query.toProto_means q h.1)
      ⟨_, rfl, Identifier.toProto_means letter h.2.1⟩ ⟨_, rfl, Json.toProto_means J h.2.2⟩
  | .incl q, h => .incl (Query.toProto_means q h)
  | .count q, h => .count (Query.toProto_means q h)

theorem NamedProperty.toProto_means {p : NamedProperty} (h : p.name.Valid letter) (h' : J.Faithful p.value) :
    (p.toProto J).Means letter J p :=
  ⟨⟨_, rfl, Identifier.toProto_means letter h⟩, ⟨_, rfl, Json.toProto_means J h'⟩⟩

theorem Output.toProto_means (o : Output) (h : o.All (·.Valid letter) J.Faithful) :
    (o.toProto J).Means letter J o := by
  cases o with
  | vertices l => exact .vertices (repeated_map _ _ (fun v hv => Vertex.toProto_means letter (h v hv)))
  | edges l => exact .edges (repeated_map _ _ (fun v hv => Edge.toProto_means letter (h v hv)))
  | count n => exact .count
  | vertexProperties l =>
    exact .vertexProperties (repeated_map _ _ (fun v hv => ⟨⟨_, rfl, Vertex.toProto_means letter (h v hv).1⟩,
      repeated_map _ _ (fun p hp => NamedProperty.toProto_means letter J ((h v hv).2 p hp).1 ((h v hv).2 p hp).2)⟩))
  | edgeProperties l =>
    exact .edgeProperties (repeated_map _ _ (fun v hv => ⟨⟨_, rfl, Edge.toProto_means letter (h v hv).1⟩,
      repeated_map _ _ (fun p hp => NamedProperty.toProto_means letter J ((h v hv).2 p hp).1 ((h v hv).2 p hp).2)⟩))

theorem BulkInsertItem.toProto_means (i : BulkInsertItem) (h : i.All (·.Valid letter) J.Faithful) :
    (i.toProto J).Means letter J i := by
  cases i with
  | vertex v => exact .vertex (Vertex.toProto_means letter h)
  | edge e => exact .edge (Edge.toProto_means letter h)
  | vertexProperty id n v =>
    exact .vertexProperty ⟨_, rfl, id.toProto_means⟩ ⟨_, rfl, Identifier.toProto_means letter h.1⟩
      ⟨_, rfl, Json.toProto_means J h.2⟩
  | edgeProperty e n v =>
    exact .edgeProperty ⟨_, rfl, Edge.toProto_means letter h.1⟩ ⟨_, rfl, Identifier.toProto_means letter h.2.1⟩
      ⟨_, rfl, Json.toProto_means J h.2.2⟩

theorem repeated_forall {α β : Type} {R : α → β → Prop} {P : β → Prop} (h : ∀ a b, R a b → P b) {l : List α}
    {l' : List β} (hl : Repeated R l l') : ∀ b ∈ l', P b := by
  induction hl with
  | nil => intro _ h; cases h
  | cons h1 _ ih =>
    intro b hb
    rcases List.mem_cons.1 hb with rfl | hb
    · exact h _ _ h1
    · exact ih _ hb

theorem optField_forall {α β : Type} {R : α → β → Prop} {P : β → Prop} (h : ∀ a b, R a b → P b) {l : Option α}
    {l' : Option β} (hl : OptField R l l') : ∀ b, l' = some b → P b := by
  cases hl with
  | none => simp
  | some h1 => intro b hb; cases hb; exact h _ _ h1

theorem field_forall {α β : Type} {R : α → β → Prop} {P : β → Prop} (h : ∀ a b, R a b → P b) {l : Option α}
    {b : β} (hl : Field R l b) : P b := by
  obtain ⟨x, _, h1⟩ := hl; exact h _ _ h1

theorem PEdge.means_valid (m : PEdge) (e : Edge) (h : m.Means letter e) : e.t.Valid letter :=
  field_forall (P := (·.Valid letter)) (R := PIdentifier.Means letter) (fun _ _ => PIdentifier.means_valid letter) h.t

theorem PVertex.means_valid (m : PVertex) (e : Vertex) (h : m.Means letter e) : e.t.Valid letter :=
  field_forall (P := (·.Valid letter)) (R := PIdentifier.Means letter) (fun _ _ => PIdentifier.means_valid letter) h.t

theorem PQuery.means_valid {m : PQuery} {q : Query} (h : m.Means letter J q) :
    q.All (·.Valid letter) (fun v => ∃ s, J.parse s = some v) := by
  have hi : ∀ (a : PIdentifier) (b : Identifier), a.Means letter b → b.Valid letter :=
    fun _ _ => PIdentifier.means_valid letter
  have hj : ∀ (a : PJson) (b : Json), a.Means J b → ∃ s, J.parse s = some b := fun a b h => ⟨_, h⟩
  induction h with
  | allVertex => trivial
  | allEdge => trivial
  | specificVertex _ => trivial
  | rangeVertex h _ => exact optField_forall hi h
  | specificEdge h => exact repeated_forall (PEdge.means_valid letter) h
  | vertexWithPropertyPresence h => exact field_forall hi h
  | edgeWithPropertyPresence h => exact field_forall hi h
  | vertexWithPropertyValue h h' => exact ⟨field_forall hi h, field_forall hj h'⟩
  | edgeWithPropertyValue h h' => exact ⟨field_forall hi h, field_forall hj h'⟩
  | pipe _ h ih => exact ⟨ih, optField_forall hi h⟩
  | pipeProperty _ h ih => exact ⟨ih, optField_forall hi h⟩
  | pipeWithPropertyPresence _ h ih => exact ⟨ih, field_forall hi h⟩
  | pipeWithPropertyValue _ h h' ih => exact ⟨ih, field_forall hi h, field_forall hj h'⟩
  | incl _ ih => exact ih
  | count _ ih => exact ih

theorem PBulkInsertItem.means_valid {m : PBulkInsertItem} {q : BulkInsertItem} (h : m.Means letter J q) :
    q.All (·.Valid letter) (fun v => ∃ s, J.parse s = some v) := by
  have hi : ∀ (a : PIdentifier) (b : Identifier), a.Means letter b → b.Valid letter :=
    fun _ _ => PIdentifier.means_valid letter
  have hj : ∀ (a : PJson) (b : Json), a.Means J b → ∃ s, J.parse s = some b := fun a b h => ⟨_, h⟩
  cases h with
  | vertex h => exact PVertex.means_valid letter _ _ h
  | edge h => exact PEdge.means_valid letter _ _ h
  | vertexProperty _ h h' => exact ⟨field_forall hi h, field_forall hj h'⟩
  | edgeProperty h0 h h' => exact ⟨field_forall (PEdge.means_valid letter) h0, field_forall hi h, field_forall hj h'⟩

/-- A message inside a meaningful one is meaningful. -/
theorem PQuery.inside_means {m' m : PQuery} (h : m'.Inside m) {q : Query} (hq : m.Means letter J q) :
    ∃ q', m'.Means letter J q' := by
  induction h generalizing q with
  | refl => exact ⟨_, hq⟩
  | step _ hi ih =>
    cases hq <;> simp only [PQuery.inner, Option.some.injEq, reduceCtorEq] at hi <;> subst hi <;> exact ih ‹_›

theorem PQuery.missing_not {m : PQuery} (h : m.MissingField) {q : Query} : ¬ m.Means letter J q := by
  intro hq
  have hf : ∀ {α β : Type} {R : α → β → Prop} {b : β}, ¬ Field R none b := by
    rintro _ _ _ _ ⟨_, h, _⟩; cases h
  cases h <;> cases hq <;> exact hf ‹_›

end
end IndraDB
