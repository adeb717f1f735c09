import Verif.Spec.Checked
/-
The database as its callers see it. `Store.graph` (Spec/Store.lean) reads the contents out of the model's state; here the
contents are defined by what `get` replies, and the properties are stated again about these replies alone, so that
nothing depends on how the model's state is read.
-/
namespace IndraDB
namespace Store
variable (S : Store)

/-- The type of vertex `id`, if asking for exactly this vertex returns one. -/
def seesVertex (env : S.Env) (s : S.State) (id : Uuid) : Option Identifier :=
  match S.ask env (.specificVertex [id]) s with
  | .ok [.vertices [v]] => some v.t
  | _ => none

/-- Asking for exactly this edge returns it. -/
def seesEdge (env : S.Env) (s : S.State) (e : Edge) : Bool :=
  match S.ask env (.specificEdge [e]) s with
  | .ok [.edges [_]] => true
  | _ => false

/-- The value of property `n` of vertex `id`, if asking for it returns one. -/
def seesVProp (env : S.Env) (s : S.State) (id : Uuid) (n : Identifier) : Option Json :=
  match S.ask env (.pipeProperty (.specificVertex [id]) (some n)) s with
  | .ok [.vertexProperties [⟨_, [p]⟩]] => some p.value
  | _ => none

/-- The value of property `n` of edge `e`, if asking for it returns one. -/
def seesEProp (env : S.Env) (s : S.State) (e : Edge) (n : Identifier) : Option Json :=
  match S.ask env (.pipeProperty (.specificEdge [e]) (some n)) s with
  | .ok [.edgeProperties [⟨_, [p]⟩]] => some p.value
  | _ => none

/-- Queries about property `n` are not answered with `NotIndexed`. -/
def seesIndexed (env : S.Env) (s : S.State) (n : Identifier) : Bool :=
  match S.ask env (.vertexWithPropertyPresence n) s with
  | .error (.err .notIndexed) => false
  | _ => true

/-- The contents of the database according to its own replies. -/
def seen (env : S.Env) (s : S.State) : Graph where
  vertex := S.seesVertex env s
  edge := S.seesEdge env s
  vprop := S.seesVProp env s
  eprop := S.seesEProp env s
  indexed := S.seesIndexed env s

/-- The same database, its contents being what its replies say (with hash iteration orders `env` in these replies). -/
def observed (env : S.Env) : Store := { S with graph := S.seen env }

/-- C01, by replies. Properties of the new vertex itself are not mentioned: properties that a bulk insertion gave to the
missing vertex become visible. -/
def CreateVertexSeen : Prop := ∀ s, S.Reach s → ∀ env v before after,
  let s' := (S.step env (.createVertex v) s).1
  (S.step env (.createVertex v) s).2 = .ok (.bool (S.seesVertex before s v.id).isNone) ∧
  (∀ i, S.seesVertex after s' i =
    if i = v.id then (match S.seesVertex before s i with | some t => some t | none => some v.t)
    else S.seesVertex before s i) ∧
  (∀ i n, i ≠ v.id ∨ S.seesVertex before s v.id ≠ none → S.seesVProp after s' i n = S.seesVProp before s i n) ∧
  (∀ e, S.seesEdge after s' e = S.seesEdge before s e) ∧
  (∀ e n, S.seesEProp after s' e n = S.seesEProp before s e n) ∧
  (∀ n, S.seesIndexed after s' n = S.seesIndexed before s n)

/-- C02, by replies. -/
def CreateEdgeSeen : Prop := ∀ s, S.Reach s → ∀ env e before after,
  let s' := (S.step env (.createEdge e) s).1
  let ok := (S.seesVertex before s e.outboundId).isSome && (S.seesVertex before s e.inboundId).isSome
  (S.step env (.createEdge e) s).2 = .ok (.bool ok) ∧
  (∀ x, S.seesEdge after s' x = if x = e then ok || S.seesEdge before s e else S.seesEdge before s x) ∧
  (∀ x n, x ≠ e ∨ S.seesEdge before s e = true ∨ ok = false → S.seesEProp after s' x n = S.seesEProp before s x n) ∧
  (∀ i, S.seesVertex after s' i = S.seesVertex before s i) ∧
  (∀ i n, S.seesVProp after s' i n = S.seesVProp before s i n) ∧
  (∀ n, S.seesIndexed after s' n = S.seesIndexed before s n)

/-- C05, by replies: deleting the vertices a query returns removes exactly them, their properties, the edges at them and
the properties of these edges. -/
def DeleteVerticesSeen : Prop := ∀ s, S.Reach s → ∀ env q vs before after,
  S.value env q s = .ok (.vertices vs) → (S.step env (.delete q) s).2 ≠ .error .panic →
  let s' := (S.step env (.delete q) s).1
  let gone : Uuid → Prop := fun i => ∃ v ∈ vs, v.id = i
  (S.step env (.delete q) s).2 = .ok .unit ∧
  (∀ i, gone i → S.seesVertex after s' i = none ∧ ∀ n, S.seesVProp after s' i n = none) ∧
  (∀ i, ¬ gone i → S.seesVertex after s' i = S.seesVertex before s i ∧
    ∀ n, S.seesVProp after s' i n = S.seesVProp before s i n) ∧
  (∀ e, gone e.outboundId ∨ gone e.inboundId → S.seesEdge after s' e = false ∧ ∀ n, S.seesEProp after s' e n = none) ∧
  (∀ e, ¬ gone e.outboundId → ¬ gone e.inboundId → S.seesEdge after s' e = S.seesEdge before s e ∧
    ∀ n, S.seesEProp after s' e n = S.seesEProp before s e n) ∧
  (∀ n, S.seesIndexed after s' n = S.seesIndexed before s n)

/-- What the RocksDB datastore does instead: the edges into the deleted vertices stay. -/
def DeleteVerticesSeenOut : Prop := ∀ s, S.Reach s → ∀ env q vs before after,
  S.value env q s = .ok (.vertices vs) → (S.step env (.delete q) s).2 ≠ .error .panic →
  let s' := (S.step env (.delete q) s).1
  let gone : Uuid → Prop := fun i => ∃ v ∈ vs, v.id = i
  (S.step env (.delete q) s).2 = .ok .unit ∧
  (∀ i, gone i → S.seesVertex after s' i = none ∧ ∀ n, S.seesVProp after s' i n = none) ∧
  (∀ i, ¬ gone i → S.seesVertex after s' i = S.seesVertex before s i ∧
    ∀ n, S.seesVProp after s' i n = S.seesVProp before s i n) ∧
  (∀ e, gone e.outboundId → S.seesEdge after s' e = false ∧ ∀ n, S.seesEProp after s' e n = none) ∧
  (∀ e, ¬ gone e.outboundId → S.seesEdge after s' e = S.seesEdge before s e ∧
    ∀ n, S.seesEProp after s' e n = S.seesEProp before s e n) ∧
  (∀ n, S.seesIndexed after s' n = S.seesIndexed before s n)

/-- C09, by replies: deleting the edges a query returns removes exactly them with their properties. Edges with
`skips before s e` are left alone. -/
def DeleteEdgesSeen (skips : S.Env → S.State → Edge → Prop) : Prop := ∀ s, S.Reach s → ∀ env q es before after,
  S.value env q s = .ok (.edges es) → (S.step env (.delete q) s).2 ≠ .error .panic →
  let s' := (S.step env (.delete q) s).1
  (S.step env (.delete q) s).2 = .ok .unit ∧
  (∀ e, e ∈ es → ¬ skips before s e → S.seesEdge after s' e = false ∧ ∀ n, S.seesEProp after s' e n = none) ∧
  (∀ e, e ∉ es ∨ skips before s e → S.seesEdge after s' e = S.seesEdge before s e ∧
    ∀ n, S.seesEProp after s' e n = S.seesEProp before s e n) ∧
  (∀ i, S.seesVertex after s' i = S.seesVertex before s i) ∧
  (∀ i n, S.seesVProp after s' i n = S.seesVProp before s i n) ∧
  (∀ n, S.seesIndexed after s' n = S.seesIndexed before s n)

/-- C08, by replies: deleting the properties a query returns removes exactly them. -/
def DeletePropertiesSeen : Prop := ∀ s, S.Reach s → ∀ env q before after, (S.step env (.delete q) s).2 ≠ .error .panic →
  let s' := (S.step env (.delete q) s).1
  let rest : Prop := (∀ i, S.seesVertex after s' i = S.seesVertex before s i) ∧
    (∀ e, S.seesEdge after s' e = S.seesEdge before s e) ∧ ∀ n, S.seesIndexed after s' n = S.seesIndexed before s n
  (∀ l, S.value env q s = .ok (.vertexProperties l) → (S.step env (.delete q) s).2 = .ok .unit ∧ rest ∧
    (∀ i n, (∃ p ∈ l, p.vertex.id = i ∧ ∃ x ∈ p.props, x.name = n) → S.seesVProp after s' i n = none) ∧
    (∀ i n, ¬ (∃ p ∈ l, p.vertex.id = i ∧ ∃ x ∈ p.props, x.name = n) →
      S.seesVProp after s' i n = S.seesVProp before s i n) ∧
    (∀ e n, S.seesEProp after s' e n = S.seesEProp before s e n)) ∧
  (∀ l, S.value env q s = .ok (.edgeProperties l) → (S.step env (.delete q) s).2 = .ok .unit ∧ rest ∧
    (∀ e n, (∃ p ∈ l, p.edge = e ∧ ∃ x ∈ p.props, x.name = n) → S.seesEProp after s' e n = none) ∧
    (∀ e n, ¬ (∃ p ∈ l, p.edge = e ∧ ∃ x ∈ p.props, x.name = n) →
      S.seesEProp after s' e n = S.seesEProp before s e n) ∧
    (∀ i n, S.seesVProp after s' i n = S.seesVProp before s i n))

/-- C07, by replies: setting a property changes exactly this property of exactly the elements the query returns. -/
def SetPropertiesSeen (stored : Json → Json) : Prop := ∀ s, S.Reach s → ∀ env q n x before after, S.okValue x →
  (S.step env (.setProperties q n x) s).2 ≠ .error .panic →
  let s' := (S.step env (.setProperties q n x) s).1
  let rest : Prop := (∀ i, S.seesVertex after s' i = S.seesVertex before s i) ∧
    (∀ e, S.seesEdge after s' e = S.seesEdge before s e) ∧ ∀ n, S.seesIndexed after s' n = S.seesIndexed before s n
  (∀ vs, S.value env q s = .ok (.vertices vs) → (S.step env (.setProperties q n x) s).2 = .ok .unit ∧ rest ∧
    (∀ v ∈ vs, S.seesVProp after s' v.id n = some (stored x)) ∧
    (∀ i m, (¬ ∃ v ∈ vs, v.id = i) ∨ m ≠ n → S.seesVProp after s' i m = S.seesVProp before s i m) ∧
    (∀ e m, S.seesEProp after s' e m = S.seesEProp before s e m)) ∧
  (∀ es, S.value env q s = .ok (.edges es) → (S.step env (.setProperties q n x) s).2 = .ok .unit ∧ rest ∧
    (∀ e ∈ es, S.seesEdge before s e = true → S.seesEProp after s' e n = some (stored x)) ∧
    (∀ e m, e ∉ es ∨ m ≠ n → S.seesEProp after s' e m = S.seesEProp before s e m) ∧
    (∀ i m, S.seesVProp after s' i m = S.seesVProp before s i m))

/-- C15, by replies: indexing makes the name indexed and changes nothing else. -/
def IndexPropertySeen : Prop := ∀ s, S.Reach s → ∀ env n before after,
  let s' := (S.step env (.indexProperty n) s).1
  (S.step env (.indexProperty n) s).2 = .ok .unit ∧
  (∀ m, S.seesIndexed after s' m = (decide (m = n) || S.seesIndexed before s m)) ∧
  (∀ i, S.seesVertex after s' i = S.seesVertex before s i) ∧
  (∀ e, S.seesEdge after s' e = S.seesEdge before s e) ∧
  (∀ i m, S.seesVProp after s' i m = S.seesVProp before s i m) ∧
  (∀ e m, S.seesEProp after s' e m = S.seesEProp before s e m)

end Store
end IndraDB
