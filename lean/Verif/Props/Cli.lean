import Verif.Spec.Cli
import Verif.Props.Server
/-
C54: the command line client.
-/
set_option linter.unusedSimpArgs false
namespace IndraDB

variable (letter : Char → Bool) (J : JsonText) (parseUuid : String → Option Uuid)

theorem argIdent_iff (s : String) (i : Identifier) : argIdent letter s = .ok i ↔ Names letter s i := by
  unfold argIdent Identifier.new Names
  have hb : (s.toList.all fun c => c == '-' || c == '_' || letter c) = true ↔
      ∀ c ∈ s.toList, c = '-' ∨ c = '_' ∨ letter c = true := by
    simp [List.all_eq_true, or_assoc]
  by_cases h1 : (strBytes s).length > 255
  · simp only [h1, dite_true, reduceCtorEq, false_iff]
    rintro ⟨h2, _⟩
    have := i.len
    rw [h2] at this; omega
  · simp only [h1, dite_false]
    by_cases h2 : (s.toList.all fun c => c == '-' || c == '_' || letter c) = true
    · simp only [h2, Bool.not_true, Bool.false_eq_true, if_false, Except.ok.injEq]
      constructor
      · rintro rfl; exact ⟨rfl, hb.1 h2⟩
      · rintro ⟨h3, _⟩
        cases i with
        | mk b hl => simp only at h3; subst h3; rfl
    · simp only [h2, Bool.not_false, if_true, reduceCtorEq, false_iff]
      rintro ⟨_, h3⟩
      exact h2 (hb.2 h3)

theorem argUuid_iff (s : String) (u : Uuid) : argUuid parseUuid s = .ok u ↔ parseUuid s = some u := by
  unfold argUuid; cases parseUuid s <;> simp

theorem argJson_iff (s : String) (v : Json) : argJson J s = .ok v ↔ J.parse s = some v := by
  unfold argJson; cases J.parse s <;> simp

theorem buildEdge_iff (o t i : String) (e : Edge) :
    buildEdge letter parseUuid o t i = .ok e ↔ NamesEdge letter parseUuid o t i e := by
  unfold buildEdge NamesEdge
  rw [← argIdent_iff, ← argUuid_iff, ← argUuid_iff]
  cases argIdent letter t with
  | error x => simp [Bind.bind, Except.bind]
  | ok t =>
    cases argUuid parseUuid o with
    | error x => simp [Bind.bind, Except.bind]
    | ok o =>
      cases argUuid parseUuid i with
      | error x => simp [Bind.bind, Except.bind]
      | ok i =>
        cases e
        simp [Bind.bind, Except.bind, Pure.pure, Except.pure]

/-- How the result of a query is printed. -/
def printer : Command → List Output → Option Printed
  | .countVertex | .countEdge => fun l => (extractCount l).map .count
  | .getVertex _ => fun l => some (.vertices (extractVertices l))
  | .getEdge _ _ _ => fun l => some (.edges (extractEdges l))
  | .getVertexProperty _ _ => fun l => some (.vertexProperties (extractVertexProperties l))
  | .getEdgeProperty _ _ _ _ => fun l => some (.edgeProperties (extractEdgeProperties l))
  | _ => fun _ => none

/-- The plan for a call. -/
def planFor (c : Command) : Op → Plan
  | .createVertex v => .create (.createVertex v) .uuidTaken (.vertex v)
  | .createEdge e => .create (.createEdge e) .vertexInvalid (.edge e)
  | .get q => .query q (printer c)
  | op => .quiet op

theorem plan_of_denotes (g : Uuid) {c : Command} {op : Op} (h : c.Denotes letter J parseUuid g op) :
    plan letter J parseUuid g c = .ok (planFor c op) := by
  cases h
  case countVertex => rfl
  case countEdge => rfl
  all_goals
    simp only [← argIdent_iff, ← argUuid_iff, ← argJson_iff, ← buildEdge_iff] at *
    simp only [plan, buildVertexQuery, argName, *]
    rfl

theorem denotes_of_plan (g : Uuid) {c : Command} {p : Plan} (h : plan letter J parseUuid g c = .ok p) :
    c = .ping ∨ ∃ op, c.Denotes letter J parseUuid g op := by
  have hb : ∀ {α β : Type} {x : Except CliError α} {f : α → Except CliError β} {y : β}, (x >>= f) = .ok y →
      ∃ a, x = .ok a ∧ f a = .ok y := by
    intro α β x f y h
    cases x with
    | error e => simp [Bind.bind, Except.bind] at h
    | ok a => exact ⟨a, rfl, h⟩
  cases c with
  | ping => exact .inl rfl
  | countVertex => exact .inr ⟨_, .countVertex⟩
  | countEdge => exact .inr ⟨_, .countEdge⟩
  | setVertex t id =>
    obtain ⟨ti, h1, h⟩ := hb h
    cases id with
    | none => exact .inr ⟨_, .setVertexNew ((argIdent_iff letter _ _).1 h1)⟩
    | some id =>
      obtain ⟨u, h2, h⟩ := hb h
      exact .inr ⟨_, .setVertex ((argIdent_iff letter _ _).1 h1) ((argUuid_iff parseUuid _ _).1 h2)⟩
  | setEdge o t i =>
    obtain ⟨e, h1, h⟩ := hb h
    exact .inr ⟨_, .setEdge ((buildEdge_iff letter parseUuid _ _ _ _).1 h1)⟩
  | setVertexProperty u n v =>
    obtain ⟨q, h1, h⟩ := hb h
    obtain ⟨u, h1, _⟩ := hb h1
    obtain ⟨n, h2, h⟩ := hb h
    obtain ⟨v, h3, h⟩ := hb h
    exact .inr ⟨_, .setVertexProperty ((argUuid_iff parseUuid _ _).1 h1) ((argIdent_iff letter _ _).1 h2)
      ((argJson_iff J _ _).1 h3)⟩
  | setEdgeProperty o t i n v =>
    obtain ⟨n, h2, h⟩ := hb h
    obtain ⟨v, h3, h⟩ := hb h
    obtain ⟨e, h1, h⟩ := hb h
    exact .inr ⟨_, .setEdgeProperty ((buildEdge_iff letter parseUuid _ _ _ _).1 h1) ((argIdent_iff letter _ _).1 h2)
      ((argJson_iff J _ _).1 h3)⟩
  | getVertex u =>
    obtain ⟨q, h1, h⟩ := hb h
    obtain ⟨u, h1, _⟩ := hb h1
    exact .inr ⟨_, .getVertex ((argUuid_iff parseUuid _ _).1 h1)⟩
  | getEdge o t i =>
    obtain ⟨e, h1, h⟩ := hb h
    exact .inr ⟨_, .getEdge ((buildEdge_iff letter parseUuid _ _ _ _).1 h1)⟩
  | getVertexProperty u n =>
    obtain ⟨n', h2, h⟩ := hb h
    obtain ⟨q, h1, h⟩ := hb h
    obtain ⟨u, h1, _⟩ := hb h1
    cases n with
    | none => exact .inr ⟨_, .getVertexProperties ((argUuid_iff parseUuid _ _).1 h1)⟩
    | some n =>
      obtain ⟨n'', h2, _⟩ := hb h2
      exact .inr ⟨_, .getVertexProperty ((argUuid_iff parseUuid _ _).1 h1) ((argIdent_iff letter _ _).1 h2)⟩
  | getEdgeProperty o t i n =>
    obtain ⟨e, h1, h⟩ := hb h
    obtain ⟨n', h2, h⟩ := hb h
    cases n with
    | none => exact .inr ⟨_, .getEdgeProperties ((buildEdge_iff letter parseUuid _ _ _ _).1 h1)⟩
    | some n =>
      obtain ⟨n'', h2, _⟩ := hb h2
      exact .inr ⟨_, .getEdgeProperty ((buildEdge_iff letter parseUuid _ _ _ _).1 h1) ((argIdent_iff letter _ _).1 h2)⟩
  | deleteVertex u =>
    obtain ⟨q, h1, h⟩ := hb h
    obtain ⟨u, h1, _⟩ := hb h1
    exact .inr ⟨_, .deleteVertex ((argUuid_iff parseUuid _ _).1 h1)⟩
  | deleteEdge o t i =>
    obtain ⟨e, h1, h⟩ := hb h
    exact .inr ⟨_, .deleteEdge ((buildEdge_iff letter parseUuid _ _ _ _).1 h1)⟩
  | deleteVertexProperty u n =>
    obtain ⟨n', h2, h⟩ := hb h
    obtain ⟨q, h1, h⟩ := hb h
    obtain ⟨u, h1, _⟩ := hb h1
    exact .inr ⟨_, .deleteVertexProperty ((argUuid_iff parseUuid _ _).1 h1) ((argIdent_iff letter _ _).1 h2)⟩
  | deleteEdgeProperty o t i n =>
    obtain ⟨n', h2, h⟩ := hb h
    obtain ⟨q, h1, h⟩ := hb h
    exact .inr ⟨_, .deleteEdgeProperty ((buildEdge_iff letter parseUuid _ _ _ _).1 h1) ((argIdent_iff letter _ _).1 h2)⟩

/-! Sizes. -/

theorem varintLen_le (k : Nat) : ∀ n, n < 128 ^ (k + 1) → varintLen n ≤ k + 1 := by
  induction k with
  | zero => intro n h; rw [varintLen, if_pos (by simpa using h)]; omega
  | succ k ih =>
    intro n h
    rw [varintLen]
    split
    · omega
    · have := ih (n / 128) (by rw [Nat.div_lt_iff_lt_mul (by omega), ← Nat.pow_succ]; exact h)
      omega

theorem lenField_le (n m : Nat) (h : n ≤ m) (hm : m < 128 ^ 4) : lenField n ≤ m + 5 := by
  have := varintLen_le 3 n (by omega)
  unfold lenField; omega

theorem bytesField_le (n m : Nat) (h : n ≤ m) (hm : m < 128 ^ 4) : bytesField n ≤ m + 5 := by
  unfold bytesField
  split
  · omega
  · exact lenField_le n m h hm

theorem Names.valid {letter : Char → Bool} {s : String} {i : Identifier} (h : Names letter s i) : i.Valid letter :=
  ⟨s, h.1, h.2⟩

theorem ident_size {i : Identifier} (h : i.Valid letter) : i.toProto.size ≤ 260 := by
  obtain ⟨s, h1, _⟩ := h
  have h2 : i.toStr = s := ident_str h1
  unfold PIdentifier.size Identifier.toProto
  simp only [h2, ← h1]
  exact bytesField_le _ 255 i.len (by decide)

theorem edge_size {e : Edge} (h : e.t.Valid letter) : e.toProto.size ≤ 400 := by
  have h1 := ident_size letter h
  have h2 := lenField_le _ 260 h1 (by decide)
  have h3 := lenField_le 18 18 (by omega) (by decide)
  simp only [PEdge.size, Edge.toProto, msgField, uuid_size]
  omega

theorem vertex_size' {v : Vertex} (h : v.t.Valid letter) : v.toProto.size ≤ 400 := by
  have h1 := ident_size letter h
  have h2 := lenField_le _ 260 h1 (by decide)
  have h3 := lenField_le 18 18 (by omega) (by decide)
  simp only [PVertex.size, Vertex.toProto, msgField, uuid_size]
  omega

/-- The queries of the commands are small. -/
theorem vq_size (u : Uuid) : ((Query.specificVertex [u]).toProto J).size ≤ 500 ∧
    ((Query.specificVertex [u]).toProto J).depth ≤ 10 := by
  have h3 := lenField_le 18 18 (by omega) (by decide)
  have h4 := lenField_le (lenField 18 + 0) 100 (by omega) (by decide)
  simp only [Query.toProto, PQuery.size, PQuery.depth, List.map_cons, List.map_nil, repField, uuid_size]
  refine ⟨by omega, by simp⟩

theorem eq_size {e : Edge} (h : e.t.Valid letter) : ((Query.specificEdge [e]).toProto J).size ≤ 500 ∧
    ((Query.specificEdge [e]).toProto J).depth ≤ 10 := by
  have h1 := edge_size letter h
  have h3 := lenField_le _ 400 h1 (by decide)
  have h4 := lenField_le (lenField e.toProto.size + 0) 450 (by omega) (by decide)
  simp only [Query.toProto, PQuery.size, PQuery.depth, List.map_cons, List.map_nil, repField]
  refine ⟨by omega, ?_⟩
  simp only [List.isEmpty_cons, Bool.false_eq_true, if_false]
  split <;> omega

theorem pp_size {q : Query} {n : Option Identifier} (hn : ∀ x, n = some x → x.Valid letter)
    (hq : (q.toProto J).size ≤ 500 ∧ (q.toProto J).depth ≤ 10) :
    ((Query.pipeProperty q n).toProto J).size ≤ 2000 ∧ ((Query.pipeProperty q n).toProto J).depth ≤ 20 := by
  have h1 := lenField_le _ 500 hq.1 (by decide)
  simp only [Query.toProto, PQuery.size, PQuery.depth]
  cases n with
  | none =>
    simp only [Option.map_none, msgField]
    have h4 := lenField_le (lenField (q.toProto J).size + 0) 600 (by omega) (by decide)
    refine ⟨by omega, ?_⟩
    simp only [Option.isNone_none, if_true]
    omega
  | some n =>
    simp only [Option.map_some, msgField]
    have h2 := lenField_le _ 260 (ident_size letter (hn n rfl)) (by decide)
    have h4 := lenField_le (lenField (q.toProto J).size + lenField n.toProto.size) 1000 (by omega) (by decide)
    refine ⟨by omega, ?_⟩
    simp only [Option.isNone_some, Bool.false_eq_true, if_false]
    omega

theorem denotes_all (S : Store) (g : Uuid) {c : Command} {op : Op} (h : c.Denotes letter J parseUuid g op)
    (hv : op.ValueFits S J) : op.All (·.Valid letter) J.Faithful ∧ op.Fits J ∧ op.ValuesOk S.okValue := by
  have sp : ∀ q n v, (q.toProto J).size ≤ 500 ∧ (q.toProto J).depth ≤ 10 → n.Valid letter →
      (strBytes (J.print v)).length ≤ 4000000 → (setPropertiesRequest J q n v).size ≤ 4194304 ∧
        (setPropertiesRequest J q n v).depth ≤ 100 := by
    intro q n v hq hn hl
    have h1 := lenField_le _ 500 hq.1 (by decide)
    have h2 := lenField_le _ 260 (ident_size letter hn) (by decide)
    have h3 := bytesField_le _ 4000000 hl (by decide)
    have h4 := lenField_le (bytesField (strBytes (J.print v)).length) 4000100 (by omega) (by decide)
    simp only [setPropertiesRequest, PSetPropertiesRequest.size, PSetPropertiesRequest.depth, msgField, PJson.size,
      Json.toProto]
    omega
  cases h
  case setVertex h1 h2 => exact ⟨h1.valid, Nat.le_trans (vertex_size' letter h1.valid) (by decide), trivial⟩
  case setVertexNew h1 => exact ⟨h1.valid, Nat.le_trans (vertex_size' letter h1.valid) (by decide), trivial⟩
  case setEdge h1 => exact ⟨h1.2.1.valid, Nat.le_trans (edge_size letter h1.2.1.valid) (by decide), trivial⟩
  case setVertexProperty h1 h2 h3 =>
    obtain ⟨a, b, c⟩ := hv _ _ _ rfl
    exact ⟨⟨trivial, h2.valid, a⟩, sp _ _ _ (vq_size J _) h2.valid c, b⟩
  case setEdgeProperty h1 h2 h3 =>
    obtain ⟨a, b, c⟩ := hv _ _ _ rfl
    exact ⟨⟨by intro e he; rw [List.mem_singleton.1 he]; exact h1.2.1.valid, h2.valid, a⟩,
      sp _ _ _ (eq_size letter J h1.2.1.valid) h2.valid c, b⟩
  case countVertex =>
    refine ⟨trivial, ?_, trivial⟩
    simp [Op.Fits, Query.toProto, PQuery.size, PQuery.depth, lenField, msgField, varintLen_small]
  case countEdge =>
    refine ⟨trivial, ?_, trivial⟩
    simp [Op.Fits, Query.toProto, PQuery.size, PQuery.depth, lenField, msgField, varintLen_small]
  case getVertex h1 =>
    exact ⟨trivial, ⟨Nat.le_trans (vq_size J _).1 (by decide), Nat.le_trans (vq_size J _).2 (by decide)⟩, trivial⟩
  case getEdge h1 =>
    have := eq_size letter J h1.2.1.valid
    exact ⟨by intro e he; rw [List.mem_singleton.1 he]; exact h1.2.1.valid,
      ⟨Nat.le_trans this.1 (by decide), Nat.le_trans this.2 (by decide)⟩, trivial⟩
  case getVertexProperty u _ n h1 h2 =>
    have := pp_size letter J (n := some n) (by rintro x ⟨⟩; exact h2.valid) (vq_size J u)
    exact ⟨⟨trivial, by rintro x ⟨⟩; exact h2.valid⟩, ⟨Nat.le_trans this.1 (by decide), Nat.le_trans this.2 (by decide)⟩, trivial⟩
  case getVertexProperties u h1 =>
    have := pp_size letter J (n := none) (by rintro x ⟨⟩) (vq_size J u)
    exact ⟨⟨trivial, by rintro x ⟨⟩⟩, ⟨Nat.le_trans this.1 (by decide), Nat.le_trans this.2 (by decide)⟩, trivial⟩
  case getEdgeProperty n h1 h2 =>
    have := pp_size letter J (n := some n) (by rintro x ⟨⟩; exact h2.valid) (eq_size letter J h1.2.1.valid)
    exact ⟨⟨by intro e he; rw [List.mem_singleton.1 he]; exact h1.2.1.valid, by rintro x ⟨⟩; exact h2.valid⟩,
      ⟨Nat.le_trans this.1 (by decide), Nat.le_trans this.2 (by decide)⟩, trivial⟩
  case getEdgeProperties h1 =>
    have := pp_size letter J (n := none) (by rintro x ⟨⟩) (eq_size letter J h1.2.1.valid)
    exact ⟨⟨by intro e he; rw [List.mem_singleton.1 he]; exact h1.2.1.valid, by rintro x ⟨⟩⟩,
      ⟨Nat.le_trans this.1 (by decide), Nat.le_trans this.2 (by decide)⟩, trivial⟩
  case deleteVertex h1 =>
    exact ⟨trivial, ⟨Nat.le_trans (vq_size J _).1 (by decide), Nat.le_trans (vq_size J _).2 (by decide)⟩, trivial⟩
  case deleteEdge h1 =>
    have := eq_size letter J h1.2.1.valid
    exact ⟨by intro e he; rw [List.mem_singleton.1 he]; exact h1.2.1.valid,
      ⟨Nat.le_trans this.1 (by decide), Nat.le_trans this.2 (by decide)⟩, trivial⟩
  case deleteVertexProperty u _ n h1 h2 =>
    have := pp_size letter J (n := some n) (by rintro x ⟨⟩; exact h2.valid) (vq_size J u)
    exact ⟨⟨trivial, by rintro x ⟨⟩; exact h2.valid⟩, ⟨Nat.le_trans this.1 (by decide), Nat.le_trans this.2 (by decide)⟩, trivial⟩
  case deleteEdgeProperty n h1 h2 =>
    have := pp_size letter J (n := some n) (by rintro x ⟨⟩; exact h2.valid) (eq_size letter J h1.2.1.valid)
    exact ⟨⟨by intro e he; rw [List.mem_singleton.1 he]; exact h1.2.1.valid, by rintro x ⟨⟩; exact h2.valid⟩,
      ⟨Nat.le_trans this.1 (by decide), Nat.le_trans this.2 (by decide)⟩, trivial⟩

/-! ### The program -/

/-- Queries are answered by reading. -/
def Store.Reading (S : Store) : Prop := ∀ env q s r, (S.step env (.get q) s).2 = .ok r →
  ∃ R, (getQuery R q).map .outputs = .ok r

theorem memStore_reading (K : HashEq) (b : Build) : (memStore K b).Reading := by
  intro O q d r h
  change (MemDb.step K b O (.get q) d).2 = .ok r at h
  cases hp : d.poisoned with
  | true => simp [MemDb.step, hp] at h
  | false =>
    rw [(memStep_eq hp O (.get q)).2.1] at h
    exact ⟨_, h⟩

theorem rocksStore_reading (X : Cfg) : (rocksStore X).Reading := fun _ _ _ _ h => ⟨_, h⟩

/-- The result of the query of a command is one value, which is printed. -/
theorem get_printed (S : Store) (hg : S.Reading) (g : Uuid) {c : Command} {q : Query}
    (h : c.Denotes letter J parseUuid g (.get q)) (env : S.Env) (s : S.State) (r : Reply)
    (hr : (S.step env (.get q) s).2 = .ok r) :
    ∃ l p, r = .outputs l ∧ printer c l = some p ∧ reported (.get q) r = .ok p := by
  obtain ⟨R, hR⟩ := hg env q s r hr
  rw [getQuery_eq] at hR
  have one : ∀ {x : Res Output} {r : Reply}, ((single x).map (fun p => p.1 ++ [p.2])).map Reply.outputs = .ok r →
      ∃ o, x = .ok o ∧ r = .outputs [o] := by
    intro x r h
    cases x with
    | error f => simp [single, Except.map] at h
    | ok o => simp [single, Except.map] at h; exact ⟨o, rfl, h.symm⟩
  have two : ∀ {i : Query} {x : Res Output} {st : Output → Res Output} {r : Reply}, i.isInclude = false →
      ((evalStage i (single x) st).map (fun p => p.1 ++ [p.2])).map Reply.outputs = .ok r →
      ∃ v o, x = .ok v ∧ st v = .ok o ∧ r = .outputs [o] := by
    intro i x st r hi h
    cases x with
    | error f => simp [single, evalStage, Except.map] at h
    | ok v =>
      cases hs : st v with
      | error f => simp [single, evalStage, Except.map, hs] at h
      | ok o => simp [single, evalStage, Except.map, hs, hi] at h; exact ⟨v, o, rfl, hs, h.symm⟩
  have bind_ok : ∀ {α β : Type} {x : Res α} {f : α → Res β} {y : β}, (x >>= f) = .ok y → ∃ a, x = .ok a ∧ f a = .ok y := by
    intro α β x f y h
    cases x with
    | error e => simp [Bind.bind, Except.bind] at h
    | ok a => exact ⟨a, rfl, h⟩
  cases h
  case countVertex =>
    simp [eval, Except.map] at hR; subst hR
    exact ⟨_, _, rfl, rfl, rfl⟩
  case countEdge =>
    simp [eval, Except.map] at hR; subst hR
    exact ⟨_, _, rfl, rfl, rfl⟩
  case getVertex =>
    obtain ⟨o, h1, rfl⟩ := one hR
    obtain ⟨_, _, h1⟩ := bind_ok h1
    obtain ⟨_, _, h1⟩ := bind_ok h1
    cases h1
    exact ⟨_, _, rfl, rfl, rfl⟩
  case getEdge =>
    obtain ⟨o, h1, rfl⟩ := one hR
    obtain ⟨_, _, h1⟩ := bind_ok h1
    obtain ⟨_, _, h1⟩ := bind_ok h1
    cases h1
    exact ⟨_, _, rfl, rfl, rfl⟩
  case getVertexProperty =>
    obtain ⟨v, o, h1, h2, rfl⟩ := two rfl hR
    obtain ⟨_, _, h1⟩ := bind_ok h1
    obtain ⟨_, _, h1⟩ := bind_ok h1
    cases h1
    obtain ⟨_, _, h2⟩ := bind_ok h2
    cases h2
    exact ⟨_, _, rfl, rfl, rfl⟩
  case getVertexProperties =>
    obtain ⟨v, o, h1, h2, rfl⟩ := two rfl hR
    obtain ⟨_, _, h1⟩ := bind_ok h1
    obtain ⟨_, _, h1⟩ := bind_ok h1
    cases h1
    obtain ⟨_, _, h2⟩ := bind_ok h2
    cases h2
    exact ⟨_, _, rfl, rfl, rfl⟩
  case getEdgeProperty =>
    obtain ⟨v, o, h1, h2, rfl⟩ := two rfl hR
    obtain ⟨_, _, h1⟩ := bind_ok h1
    obtain ⟨_, _, h1⟩ := bind_ok h1
    cases h1
    obtain ⟨_, _, h2⟩ := bind_ok h2
    cases h2
    exact ⟨_, _, rfl, rfl, rfl⟩
  case getEdgeProperties =>
    obtain ⟨v, o, h1, h2, rfl⟩ := two rfl hR
    obtain ⟨_, _, h1⟩ := bind_ok h1
    obtain ⟨_, _, h1⟩ := bind_ok h1
    cases h1
    obtain ⟨_, _, h2⟩ := bind_ok h2
    cases h2
    exact ⟨_, _, rfl, rfl, rfl⟩

/-- A query whose result is lost. -/
theorem get_lost (g : Uuid) {c : Command} {q : Query} (h : c.Denotes letter J parseUuid g (.get q)) :
    match c with
    | .getVertex _ => printer c [] = some (.vertices none)
    | .getEdge _ _ _ => printer c [] = some (.edges none)
    | .getVertexProperty _ _ => printer c [] = some (.vertexProperties none)
    | .getEdgeProperty _ _ _ _ => printer c [] = some (.edgeProperties none)
    | _ => printer c [] = none := by
  cases h <;> rfl

theorem Store.cli_exact (S : Store) (ht : S.Typed) (hc : S.RepliesClosed (·.Valid letter) J.Faithful) (hg : S.Reading) :
    S.CommandsExact letter J parseUuid := by
  intro hist hok ha env g c
  generalize hs : S.run hist S.init = s
  replace hs := hs.symm
  refine ⟨?_, ?_, rfl⟩
  · intro op hd hv
    obtain ⟨h1, h2, h3⟩ := denotes_all letter J parseUuid S g hd hv
    have key := S.clientCall_eq letter J ht env op s h1 h2
    have hr : ∀ x, (S.step env op s).2 = .ok x → x.All (·.Valid letter) J.Faithful := by
      intro x hx
      subst hs
      refine hc (hist ++ [(env, op)]) ?_ ?_ x ?_
      · intro p hp
        rcases List.mem_append.1 hp with hp | hp
        · exact hok p hp
        · rw [List.mem_singleton.1 hp]; exact h3
      · intro p hp
        rcases List.mem_append.1 hp with hp | hp
        · exact ha p hp
        · rw [List.mem_singleton.1 hp]; exact h1
      · rw [Store.replies_append]
        exact List.mem_append_right _ (by simp [Store.replies, hx])
    have hcli : S.cli letter J parseUuid env g c s = S.perform letter J env s (planFor c op) := by
      unfold Store.cli; rw [plan_of_denotes letter J parseUuid g hd]
    have hty := ht env op s
    have hgp : ∀ q, op = .get q → ∀ r, (S.step env op s).2 = .ok r →
        ∃ l p, r = .outputs l ∧ printer c l = some p ∧ reported (.get q) r = .ok p := by
      rintro q rfl r hr
      exact get_printed letter J parseUuid S hg g hd env s r hr
    rw [hcli]
    obtain ⟨k1, k2, k3, k4, k5⟩ := key
    have k3' : ∀ r, (S.step env op s).2 = .ok r → r.Fits J → (S.clientCall letter J env op s).2 = .ok r :=
      fun r h => k3 r h (hr r h)
    have k4' : ∀ r, (S.step env op s).2 = .ok r → ¬ r.Fits J →
      (S.clientCall letter J env op s).2 = .error (.grpc .undecodable) := fun r h => k4 r h (hr r h)
    clear k3 k4 hr hcli
    generalize hcc : S.clientCall letter J env op s = cc at k1 k2 k3' k4' k5
    obtain ⟨s', y⟩ := cc
    simp only at k1 k2 k3' k4' k5
    have st : (S.perform letter J env s (planFor c op)).1 = s' := by
      cases op <;> simp only [planFor, Store.perform, hcc]
      case get q =>
        split
        · rename_i h; cases h; split <;> rfl
        · rename_i h; cases h; rfl
        · rename_i h; cases h; rfl
      all_goals
        split <;> (rename_i h; cases h; rfl)
    have er : ∀ e, y = .error e → (S.perform letter J env s (planFor c op)).2 = .error (.client e) := by
      rintro e rfl
      cases op <;> simp only [planFor, Store.perform, hcc]
    refine ⟨st.trans k1, ?_, ?_, ?_, ?_⟩
    · intro r h1 h2
      have hy := k3' r h1 h2
      have hi := hty r h1
      subst hy
      cases op
      case get q =>
        obtain ⟨l, p, rfl, hp, hrep⟩ := hgp _ rfl r h1
        rw [hrep]
        simp only [planFor, Store.perform, hcc, hp]
      case createVertex v =>
        cases r <;> first | exact hi.elim | skip
        rename_i b
        cases b <;> simp only [planFor, Store.perform, hcc, reported] <;> rfl
      case createEdge v =>
        cases r <;> first | exact hi.elim | skip
        rename_i b
        cases b <;> simp only [planFor, Store.perform, hcc, reported] <;> rfl
      case createVertexFromType a b => cases hd
      case sync => cases hd
      all_goals
        cases r <;> first | exact hi.elim | skip
        simp only [planFor, Store.perform, hcc]
        rfl
    · intro r h1 h2; exact er _ (k4' r h1 h2)
    · intro e h; exact er _ (k2 _ h (by intro h; cases h))
    · intro h hq; exact er _ (k2 _ h (fun _ => hq))
  · intro hn hp
    unfold Store.cli
    cases h : plan letter J parseUuid g c with
    | error e => exact ⟨e, rfl⟩
    | ok p =>
      rcases denotes_of_plan letter J parseUuid g h with h | h
      · exact absurd h hp
      · exact absurd h hn

/-- C54 for a server with the memory datastore. -/
theorem C54_memory (K : HashEq) (b : Build) : (memStore K b).CommandsExact letter J parseUuid :=
  (memStore K b).cli_exact letter J parseUuid (memStore_typed K b) (memStore_closed K b) (memStore_reading K b)

/-- C54 for a server with RocksDB. -/
theorem C54_rocks (X : Cfg) (hX : ∀ x, J.Faithful x → J.Faithful (X.stored x)) :
    (rocksStore X).CommandsExact letter J parseUuid :=
  (rocksStore X).cli_exact letter J parseUuid (rocksStore_typed X) (rocksStore_closed X hX) (rocksStore_reading X)

/-- After a panic has made the memory datastore unusable (C35), `get vertex` on any id prints `None` and the program
succeeds; counting crashes the program, and deleting reports the failure. -/
theorem C54_poisoned (K : HashEq) (b : Build) (O : HashOrder) (g : Uuid) (d : MemDb) (hd : d.poisoned = true)
    (id : String) (u : Uuid) (hu : parseUuid id = some u) :
    ((memStore K b).cli letter J parseUuid O g (.getVertex id) d).2 = .ok (.vertices none) ∧
    ((memStore K b).cli letter J parseUuid O g .countVertex d).2 = .error .panic ∧
    ((memStore K b).cli letter J parseUuid O g (.deleteVertex id) d).2 = .error (.client (.grpc (.internal .panic))) := by
  have hp : ∀ op, ((memStore K b).step O op d).2 = .error .panic := by
    intro op
    change (MemDb.step K b O op d).2 = _
    simp [MemDb.step, hd]
  have h1 := Command.Denotes.getVertex (letter := letter) (J := J) (generated := g) hu
  have h2 := Command.Denotes.countVertex (letter := letter) (J := J) (parseUuid := parseUuid) (generated := g)
  have h3 := Command.Denotes.deleteVertex (letter := letter) (J := J) (generated := g) hu
  have d1 := denotes_all letter J parseUuid (memStore K b) g h1 (by rintro _ _ _ ⟨⟩)
  have d2 := denotes_all letter J parseUuid (memStore K b) g h2 (by rintro _ _ _ ⟨⟩)
  have d3 := denotes_all letter J parseUuid (memStore K b) g h3 (by rintro _ _ _ ⟨⟩)
  have c1 := ((memStore K b).clientCall_eq letter J (memStore_typed K b) O _ d d1.1 d1.2.1).2.2.2.2 _ rfl (hp _)
  have c2 := ((memStore K b).clientCall_eq letter J (memStore_typed K b) O _ d d2.1 d2.2.1).2.2.2.2 _ rfl (hp _)
  have c3 := ((memStore K b).clientCall_eq letter J (memStore_typed K b) O _ d d3.1 d3.2.1).2.1 _ (hp _)
    (by rintro _ _ ⟨⟩)
  unfold Store.cli
  rw [plan_of_denotes letter J parseUuid g h1, plan_of_denotes letter J parseUuid g h2, plan_of_denotes letter J parseUuid g h3]
  simp only [planFor, Store.perform]
  refine ⟨?_, ?_, ?_⟩
  · generalize Store.clientCall (memStore K b) letter J O _ d = x at c1 ⊢
    obtain ⟨s', y⟩ := x
    simp only at c1; subst c1; rfl
  · generalize Store.clientCall (memStore K b) letter J O _ d = x at c2 ⊢
    obtain ⟨s', y⟩ := x
    simp only at c2; subst c2; rfl
  · generalize Store.clientCall (memStore K b) letter J O _ d = x at c3 ⊢
    obtain ⟨s', y⟩ := x
    simp only at c3; subst c3; rfl

/-- Ids as the witnesses of the examples print them. -/
def W.readId (s : String) : Option Uuid := if s = "1" then some (W.u 1) else if s = "2" then some (W.u 2) else none

/-- Commands with valid arguments, among them one without an id and one that writes a value, and one with an invalid id. -/
example : (Command.setVertex "foo" none).Denotes asciiAlnum twoText W.readId (W.u 3) (.createVertex ⟨W.u 3, fooIdent⟩) ∧
    (Command.setVertexProperty "1" "foo" "true").Denotes asciiAlnum twoText W.readId (W.u 3)
      (.setProperties (.specificVertex [W.u 1]) fooIdent (.bool true)) ∧
    (Op.setProperties (.specificVertex [W.u 1]) fooIdent (.bool true)).ValueFits (MS .debug) twoText ∧
    (Command.getEdgeProperty "1" "foo" "2" none).Denotes asciiAlnum twoText W.readId (W.u 3)
      (.get (.pipeProperty (.specificEdge [⟨W.u 1, fooIdent, W.u 2⟩]) none)) ∧
    ¬ ∃ op, (Command.getVertex "bar").Denotes asciiAlnum twoText W.readId (W.u 3) op := by
  have hn : Names asciiAlnum "foo" fooIdent := ⟨rfl, by decide +kernel⟩
  refine ⟨.setVertexNew hn, .setVertexProperty (by decide +kernel) hn (by rfl), ?_,
    .getEdgeProperties ⟨by decide +kernel, hn, by decide +kernel⟩, ?_⟩
  · rintro q n v ⟨⟩
    exact ⟨by simp [JsonText.Faithful, twoText], trivial, by decide +kernel⟩
  · rintro ⟨op, h⟩
    cases h with
    | getVertex h => exact absurd h (by simp [W.readId])

/-- A run: two vertices are made, the second under an id that is taken; the first is then found. -/
example : let c := fun (s : MemDb) x => (MS .debug).cli asciiAlnum twoText W.readId HashOrder.sorted (W.u 3) x s
    let s1 := (c MemDb.new (.setVertex "foo" (some "1"))).1
    (c MemDb.new (.setVertex "foo" (some "1"))).2 = .ok (.vertex ⟨W.u 1, fooIdent⟩) ∧
    (c s1 (.setVertex "bar" (some "1"))).2 = .error .uuidTaken ∧
    (c s1 (.getVertex "1")).2 = .ok (.vertices (some [⟨W.u 1, fooIdent⟩])) ∧
    (c s1 (.getVertex "2")).2 = .ok (.vertices (some [])) ∧
    (c s1 (.setEdge "1" "foo" "2")).2 = .error .vertexInvalid ∧
    (c s1 .countVertex).2 = .ok (.count 1) ∧
    (c s1 (.getVertex "x")).2 = .error .uuid := by
  refine ⟨?_, ?_, ?_, ?_, ?_, ?_, ?_⟩ <;> kernel_rfl

end IndraDB
