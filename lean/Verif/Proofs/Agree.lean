import Verif.Spec.Agree
import Verif.Proofs.MemoryStore
import Verif.Proofs.RocksHistory
/-
C28: on the common fragment both datastores give the same replies.
-/
set_option linter.unusedSimpArgs false
namespace IndraDB

/-! ### Replies -/

theorem Zip.refl {α : Type} {R : α → α → Prop} (h : ∀ a, R a a) : ∀ l : List α, Zip R l l
  | [] => .nil
  | a :: l => .cons (h a) (Zip.refl h l)

theorem Zip.append {α β : Type} {R : α → β → Prop} {l l' : List α} {m m' : List β} (h : Zip R l m) (h' : Zip R l' m') :
    Zip R (l ++ l') (m ++ m') := by
  induction h with
  | nil => exact h'
  | cons h1 _ ih => exact .cons h1 ih

theorem Output.Same.refl (o : Output) : o.Same o := by cases o <;> first | exact List.Perm.refl _ | rfl

/-- The same outcome of a stage. -/
def SameRes (a b : Res Output) : Prop :=
  match a, b with
  | .ok v, .ok w => v.Same w
  | .error f, .error f' => f = f'
  | _, _ => False

/-- The same outcome of a query. -/
def SameAns (a b : Res (List Output × Output)) : Prop :=
  match a, b with
  | .ok p, .ok q => Zip Output.Same p.1 q.1 ∧ p.2.Same q.2
  | .error f, .error f' => f = f'
  | _, _ => False

theorem SameRes.refl (a : Res Output) : SameRes a a := by
  cases a with
  | ok v => exact Output.Same.refl v
  | error f => exact (rfl : f = f)

theorem SameAns.refl (a : Res (List Output × Output)) : SameAns a a := by
  cases a with
  | ok p => exact ⟨Zip.refl Output.Same.refl _, Output.Same.refl _⟩
  | error f => exact (rfl : f = f)

theorem SameAns.one {v w : Output} (h : v.Same w) : SameAns (.ok ([], v)) (.ok ([], w)) := ⟨.nil, h⟩

theorem SameRes.of_eq {a b : Res Output} (h : a = b) : SameRes a b := h ▸ SameRes.refl a

theorem Next.eq {i : Query} {S T : Output → Res Output → Prop} {ri r r' : Res (List Output × Output)}
    (h : Next i S ri r) (h' : Next i T ri r')
    (hs : ∀ inc v, ri = .ok (inc, v) → ∀ a b, S v a → T v b → a = b) : r = r' := by
  unfold Next at h h'
  cases ri with
  | error f => exact h.trans h'.symm
  | ok p =>
    obtain ⟨inc, v⟩ := p
    obtain ⟨a, ha, h1⟩ := h
    obtain ⟨b, hb, h2⟩ := h'
    rw [h1, h2, hs inc v rfl a b ha hb]

theorem Next.same {i : Query} {S T : Output → Res Output → Prop} {ri ri' r r' : Res (List Output × Output)}
    (hri : SameAns ri ri') (h : Next i S ri r) (h' : Next i T ri' r')
    (hs : ∀ inc v inc' w, ri = .ok (inc, v) → ri' = .ok (inc', w) → v.Same w → ∀ a b, S v a → T w b → SameRes a b) :
    SameAns r r' := by
  unfold Next at h h'
  cases ri with
  | error f =>
    cases ri' with
    | error f' => cases hri; cases h; cases h'; exact (rfl : f = f)
    | ok p => exact hri.elim
  | ok p =>
    cases ri' with
    | error f' => exact hri.elim
    | ok p' =>
      obtain ⟨inc, v⟩ := p
      obtain ⟨inc', w⟩ := p'
      obtain ⟨h1, h2⟩ := hri
      obtain ⟨a, ha, hr⟩ := h
      obtain ⟨b, hb, hr'⟩ := h'
      have hab := hs inc v inc' w rfl rfl h2 a b ha hb
      rw [hr, hr']
      cases a with
      | error f =>
        cases b with
        | error f' => exact hab
        | ok _ => exact hab.elim
      | ok x =>
        cases b with
        | error f' => exact hab.elim
        | ok y =>
          refine ⟨h1.append ?_, hab⟩
          cases i.isInclude
          · exact .nil
          · exact .cons h2 .nil

/-! ### Queries -/

/-- What two datastores have in common. `ix`: their indexes agree on the values in `V`. -/
structure Agree (g : Graph) (I J : IndexView) (C D : Conv) (V : Json → Prop) (ix : Prop) : Prop where
  edges : ∀ a b, g.edge a = true → g.edge b = true → C.edgeLt a b = D.edgeLt a b
  reversed : ∀ a b, g.edge a = true → g.edge b = true → C.edgeLt a.reversed b.reversed = D.edgeLt a.reversed b.reversed
  panicC : ∀ i, g.vertex i ≠ none → C.propsPanic i = false
  panicD : ∀ i, g.vertex i ≠ none → D.propsPanic i = false
  vPresent : ix → ∀ n, g.indexed n = true → ∀ i, I.vPresent n i = J.vPresent n i
  vValue : ix → ∀ n, g.indexed n = true → ∀ v, V v → ∀ i, I.vValue n v i = J.vValue n v i
  ePresent : ix → ∀ n, g.indexed n = true → ∀ e, I.ePresent n e = J.ePresent n e
  eValue : ix → ∀ n, g.indexed n = true → ∀ v, V v → ∀ e, I.eValue n v e = J.eValue n v e
  nodupI : ix → I.nodup
  nodupJ : ix → J.nodup

theorem Enumerates.relt {α : Type} {lt lt' : α → α → Bool} {l : List α} {P : α → Prop} (h : Enumerates lt l P)
    (he : ∀ a b, P a → P b → lt a b = lt' a b) : Enumerates lt' l P := by
  refine ⟨?_, h.mem⟩
  exact h.sorted.imp_of_mem (fun ha hb hab => (he _ _ ((h.mem _).1 ha) ((h.mem _).1 hb)).symm.trans hab)

section
variable {g : Graph} {I J : IndexView} {C D : Conv} {V : Json → Prop} {ix : Prop}

theorem vertexLt_irrefl (a : Vertex) : vertexLt a a = false := Order.irrefl a.id
theorem vertexLt_trans (a b c : Vertex) : vertexLt a b = true → vertexLt b c = true → vertexLt a c = true :=
  Order.trans a.id b.id c.id

theorem Conv.dirLt_irrefl (C : Conv) (d : EdgeDirection) (a : Edge) : C.dirLt d a a = false := by
  cases d <;> exact C.edge_irrefl _

theorem Conv.dirLt_trans (C : Conv) (d : EdgeDirection) (a b c : Edge) : C.dirLt d a b = true → C.dirLt d b c = true →
    C.dirLt d a c = true := by
  cases d <;> exact C.edge_trans _ _ _

theorem Lists.perm {α : Type} {P Q : α → Bool} {l m : List α} (h : Lists I l P) (h' : Lists J m Q) (hI : I.nodup)
    (hJ : J.nodup) (hpq : ∀ x, P x = Q x) : l.Perm m := by
  rw [List.perm_ext_iff_of_nodup (h.2 hI) (h'.2 hJ)]
  intro x
  rw [h.1, h'.1, hpq]

theorem Agree.pipe (A : Agree g I J C D V ix) (d : EdgeDirection) (limit : Nat) (t : Option Identifier) (v : Output)
    {a b : Res Output} (ha : PipeStage g C d limit t v a) (hb : PipeStage g D d limit t v b) : a = b := by
  cases v with
  | edges es =>
    obtain ⟨l, h1, h2⟩ := ha
    obtain ⟨l', h1', h2'⟩ := hb
    rw [h2, h2', h1, h1']
  | vertices vs =>
    obtain ⟨per, h1, h2⟩ := ha
    obtain ⟨per', h1', h2'⟩ := hb
    have : per = per' := by
      funext id
      refine Enumerates.unique (D.dirLt_irrefl d) (D.dirLt_trans d) ((h1 id).relt ?_) (h1' id)
      intro x y hx hy
      cases d
      · exact A.edges x y hx.1 hy.1
      · exact A.reversed x y hx.1 hy.1
    rw [h2, h2', this]
  | _ => exact ha.trans hb.symm

/-- The property stage on permuted inputs. -/
theorem Agree.property (A : Agree g I J C D V ix) (n : Option Identifier) {v w : Output} (hvw : v.Same w)
    (hv : ∀ vs, v = .vertices vs → ∀ x ∈ vs, g.vertex x.id = some x.t)
    (hw : ∀ vs, w = .vertices vs → ∀ x ∈ vs, g.vertex x.id = some x.t)
    {a b : Res Output} (ha : PropertyStage g C n v a) (hb : PropertyStage g D n w b) :
    SameRes a b ∧ (v = w → a = b) := by
  cases v <;> cases w <;> try exact hvw.elim
  case vertices.vertices vs ws =>
    have hC : ¬ (n = none ∧ ∃ x ∈ vs, C.propsPanic x.id = true) := by
      rintro ⟨_, x, hx, h⟩
      rw [A.panicC x.id (by rw [hv vs rfl x hx]; simp)] at h; simp at h
    have hD : ¬ (n = none ∧ ∃ x ∈ ws, D.propsPanic x.id = true) := by
      rintro ⟨_, x, hx, h⟩
      rw [A.panicD x.id (by rw [hw ws rfl x hx]; simp)] at h; simp at h
    simp only [PropertyStage] at ha hb
    rw [if_neg hC] at ha
    rw [if_neg hD] at hb
    obtain ⟨p, h1, h2⟩ := ha
    obtain ⟨p', h1', h2'⟩ := hb
    have hm : ws.filterMap (fun x => if p x.id = [] then none else some (⟨x, p x.id⟩ : VertexProperties)) =
        ws.filterMap (fun x => if p' x.id = [] then none else some ⟨x, p' x.id⟩) := by
      refine filterMap_congr' (fun x hx => ?_)
      rw [(h1 x ((List.Perm.mem_iff hvw).2 hx)).unique (h1' x hx)]
    have hp := List.Perm.filterMap (fun x => if p x.id = [] then none else some (⟨x, p x.id⟩ : VertexProperties)) hvw
    rw [hm] at hp
    rw [h2, h2']
    refine ⟨hp, fun h => ?_⟩
    cases h
    rw [hm]
  case edges.edges vs ws =>
    obtain ⟨p, h1, h2⟩ := ha
    obtain ⟨p', h1', h2'⟩ := hb
    have : p = p' := funext (fun e => (h1 e).unique (h1' e))
    subst this
    rw [h2, h2']
    refine ⟨List.Perm.filterMap _ hvw, fun h => ?_⟩
    cases h; rfl
  all_goals
    have ha' : a = .error (.err .operationOnQuery) := ha
    have hb' : b = .error (.err .operationOnQuery) := hb
    rw [ha', hb']; exact ⟨rfl, fun _ => rfl⟩

/-- Filter stages on permuted inputs. -/
theorem same_filter {n : Identifier} {vin vin' : Uuid → Bool} {ein ein' : Edge → Bool} {keep : Bool}
    (h1 : g.indexed n = true → ∀ i, vin i = vin' i) (h2 : g.indexed n = true → ∀ e, ein e = ein' e) {v w : Output}
    (hvw : v.Same w) {a b : Res Output} (ha : FilterStage g n vin ein keep v a) (hb : FilterStage g n vin' ein' keep w b) :
    SameRes a b ∧ (v = w → a = b) := by
  cases v <;> cases w <;> try exact hvw.elim
  case vertices.vertices vs ws =>
    simp only [FilterStage] at ha hb
    by_cases hn : g.indexed n = true
    · rw [if_pos hn] at ha hb
      rw [ha, hb, funext (h1 hn)]
      exact ⟨List.Perm.filter _ hvw, fun h => by cases h; rfl⟩
    · rw [if_neg hn] at ha hb
      rw [ha, hb]; exact ⟨rfl, fun _ => rfl⟩
  case edges.edges vs ws =>
    simp only [FilterStage] at ha hb
    by_cases hn : g.indexed n = true
    · rw [if_pos hn] at ha hb
      rw [ha, hb, funext (h2 hn)]
      exact ⟨List.Perm.filter _ hvw, fun h => by cases h; rfl⟩
    · rw [if_neg hn] at ha hb
      rw [ha, hb]; exact ⟨rfl, fun _ => rfl⟩
  all_goals
    have ha' : a = .error (.err .operationOnQuery) := ha
    have hb' : b = .error (.err .operationOnQuery) := hb
    rw [ha', hb']; exact ⟨rfl, fun _ => rfl⟩

theorem same_count {v w : Output} (hvw : v.Same w) {a b : Res Output} (ha : CountStage v a) (hb : CountStage w b) :
    SameRes a b ∧ (v = w → a = b) := by
  have hs : v.size? = w.size? := by
    cases v <;> cases w <;> first | exact hvw.elim | rfl | exact congrArg some (List.Perm.length_eq hvw)
  have : a = b := by
    unfold CountStage at ha hb
    rw [hs] at ha
    revert ha hb
    cases w.size? <;> intro ha hb <;> exact ha.trans hb.symm
  exact ⟨SameRes.of_eq this, fun _ => this⟩

theorem Agree.answers (A : Agree g I J C D V ix) (q : Query) : ∀ r r', q.Asks V → (ix ∨ q.NoIndex) →
    Answers g I C q r → Answers g J D q r' → (q.Ordered → r = r') ∧ (q.Determined → SameAns r r') := by
  -- from equality
  have eqs : ∀ {r r' : Res (List Output × Output)} {P Q : Prop}, r = r' → (P → r = r') ∧ (Q → SameAns r r') :=
    fun h => ⟨fun _ => h, fun _ => h ▸ SameAns.refl _⟩
  -- index lookups
  have look : ∀ {n : Identifier} {P Q : Uuid → Bool} {r r' : Res (List Output × Output)}, (g.indexed n = true → ∀ i, P i = Q i) →
      I.nodup → J.nodup →
      (if g.indexed n then ∃ l, Lists I l P ∧ r = .ok ([], .vertices (g.lookup l)) else r = .error (.err .notIndexed)) →
      (if g.indexed n then ∃ l, Lists J l Q ∧ r' = .ok ([], .vertices (g.lookup l)) else r' = .error (.err .notIndexed)) →
      SameAns r r' := by
    intro n P Q r r' hpq hI hJ h h'
    by_cases hn : g.indexed n = true
    · rw [if_pos hn] at h h'
      obtain ⟨l, h1, rfl⟩ := h
      obtain ⟨m, h2, rfl⟩ := h'
      exact SameAns.one (List.Perm.filterMap _ (h1.perm h2 hI hJ (hpq hn)))
    · rw [if_neg hn] at h h'
      rw [h, h']; exact SameAns.refl _
  have lookE : ∀ {n : Identifier} {P Q : Edge → Bool} {r r' : Res (List Output × Output)}, (g.indexed n = true → ∀ i, P i = Q i) →
      I.nodup → J.nodup →
      (if g.indexed n then ∃ l, Lists I l P ∧ r = .ok ([], .edges l) else r = .error (.err .notIndexed)) →
      (if g.indexed n then ∃ l, Lists J l Q ∧ r' = .ok ([], .edges l) else r' = .error (.err .notIndexed)) →
      SameAns r r' := by
    intro n P Q r r' hpq hI hJ h h'
    by_cases hn : g.indexed n = true
    · rw [if_pos hn] at h h'
      obtain ⟨l, h1, rfl⟩ := h
      obtain ⟨m, h2, rfl⟩ := h'
      exact SameAns.one (h1.perm h2 hI hJ (hpq hn))
    · rw [if_neg hn] at h h'
      rw [h, h']; exact SameAns.refl _
  induction q with
  | allVertex =>
    rintro r r' _ _ ⟨l, h1, rfl⟩ ⟨m, h2, rfl⟩
    rw [Enumerates.unique vertexLt_irrefl vertexLt_trans h1 h2]
    exact eqs rfl
  | rangeVertex limit t start =>
    rintro r r' _ _ ⟨l, h1, rfl⟩ ⟨m, h2, rfl⟩
    rw [Enumerates.unique vertexLt_irrefl vertexLt_trans h1 h2]
    exact eqs rfl
  | specificVertex ids => intro r r' _ _ h h'; exact eqs (h.trans h'.symm)
  | vertexWithPropertyPresence n =>
    intro r r' _ hx h h'
    have hx := hx.resolve_right id
    exact ⟨False.elim, fun _ => look (A.vPresent hx n) (A.nodupI hx) (A.nodupJ hx) h h'⟩
  | vertexWithPropertyValue n v =>
    intro r r' hv hx h h'
    have hx := hx.resolve_right id
    exact ⟨False.elim, fun _ => look (fun hn => A.vValue hx n hn v hv) (A.nodupI hx) (A.nodupJ hx) h h'⟩
  | allEdge =>
    rintro r r' _ _ ⟨l, h1, rfl⟩ ⟨m, h2, rfl⟩
    rw [Enumerates.unique D.edge_irrefl D.edge_trans (h1.relt A.edges) h2]
    exact eqs rfl
  | specificEdge es => intro r r' _ _ h h'; exact eqs (h.trans h'.symm)
  | edgeWithPropertyPresence n =>
    intro r r' _ hx h h'
    have hx := hx.resolve_right id
    exact ⟨False.elim, fun _ => lookE (A.ePresent hx n) (A.nodupI hx) (A.nodupJ hx) h h'⟩
  | edgeWithPropertyValue n v =>
    intro r r' hv hx h h'
    have hx := hx.resolve_right id
    exact ⟨False.elim, fun _ => lookE (fun hn => A.eValue hx n hn v hv) (A.nodupI hx) (A.nodupJ hx) h h'⟩
  | pipe i d limit t ih =>
    rintro r r' hv hx ⟨ri, h1, h2⟩ ⟨ri', h1', h2'⟩
    have key : i.Ordered → r = r' := by
      intro ho
      have := (ih ri ri' hv hx h1 h1').1 ho
      subst this
      exact h2.eq h2' (fun inc v _ a b ha hb => A.pipe d _ t v ha hb)
    exact ⟨key, fun h => key h ▸ SameAns.refl _⟩
  | pipeProperty i n ih =>
    rintro r r' hv hx ⟨ri, h1, h2⟩ ⟨ri', h1', h2'⟩
    obtain ⟨e1, e2⟩ := ih ri ri' hv hx h1 h1'
    refine ⟨fun ho => ?_, fun hd => ?_⟩
    · have := e1 ho
      subst this
      refine h2.eq h2' (fun inc v hri a b ha hb => (A.property n (Output.Same.refl v) ?_ ?_ ha hb).2 rfl) <;>
      · rintro vs rfl; rw [hri] at h1; exact answers_vertices_exist h1
    · refine Next.same (e2 hd) h2 h2' (fun inc v inc' w hri hri' hvw a b ha hb => (A.property n hvw ?_ ?_ ha hb).1)
      · rintro vs rfl; rw [hri] at h1; exact answers_vertices_exist h1
      · rintro vs rfl; rw [hri'] at h1'; exact answers_vertices_exist h1'
  | pipeWithPropertyPresence i n keep ih =>
    rintro r r' hv hx ⟨ri, h1, h2⟩ ⟨ri', h1', h2'⟩
    have hx := hx.resolve_right id
    obtain ⟨e1, e2⟩ := ih ri ri' hv (Or.inl hx) h1 h1'
    refine ⟨fun ho => ?_, fun hd => ?_⟩
    · have := e1 ho
      subst this
      exact h2.eq h2' (fun inc v hri a b ha hb => (same_filter (A.vPresent hx n) (A.ePresent hx n) (Output.Same.refl v) ha hb).2 rfl)
    · exact Next.same (e2 hd) h2 h2' (fun inc v inc' w hri hri' hvw a b ha hb =>
        (same_filter (A.vPresent hx n) (A.ePresent hx n) hvw ha hb).1)
  | pipeWithPropertyValue i n v keep ih =>
    rintro r r' hv hx ⟨ri, h1, h2⟩ ⟨ri', h1', h2'⟩
    have hx := hx.resolve_right id
    obtain ⟨e1, e2⟩ := ih ri ri' hv.2 (Or.inl hx) h1 h1'
    refine ⟨fun ho => ?_, fun hd => ?_⟩
    · have := e1 ho
      subst this
      exact h2.eq h2' (fun inc o hri a b ha hb => (same_filter (fun hn => A.vValue hx n hn v hv.1)
        (fun hn => A.eValue hx n hn v hv.1) (Output.Same.refl o) ha hb).2 rfl)
    · exact Next.same (e2 hd) h2 h2' (fun inc o inc' w hri hri' hvw a b ha hb =>
        (same_filter (fun hn => A.vValue hx n hn v hv.1) (fun hn => A.eValue hx n hn v hv.1) hvw ha hb).1)
  | incl i ih => exact ih
  | count i ih =>
    rintro r r' hv hx ⟨ri, h1, h2⟩ ⟨ri', h1', h2'⟩
    obtain ⟨e1, e2⟩ := ih ri ri' hv hx h1 h1'
    refine ⟨fun ho => ?_, fun hd => ?_⟩
    · have := e1 ho
      subst this
      exact h2.eq h2' (fun inc v hri a b ha hb => (same_count (Output.Same.refl v) ha hb).2 rfl)
    · exact Next.same (e2 hd) h2 h2' (fun inc v inc' w hri hri' hvw a b ha hb => (same_count hvw ha hb).1)

end

/-! ### Calls -/

theorem Graph.rocksDropVertices_eq {g : Graph} {ids ids' : List Uuid} (ho : g.NoOrphans) (hp : ∀ i, i ∈ ids ↔ i ∈ ids')
    (hin : ∀ e, g.edge e = true → e.inboundId ∈ ids → e.outboundId ∈ ids) :
    g.dropVertices ids = g.rocksDropVertices ids' := by
  apply Graph.ext
  · funext i; simp only [Graph.dropVertices, Graph.rocksDropVertices, hp]
  · funext e
    simp only [Graph.dropVertices, Graph.rocksDropVertices, Graph.touches, ← hp]
    cases he : g.edge e with
    | false =>
      have hf : ∀ (p : Prop) [Decidable p], (if p then false else false) = false := by intro p _; split <;> rfl
      exact (hf (Graph.touches ids e)).trans (hf _).symm
    | true =>
      by_cases h1 : e.outboundId ∈ ids
      · simp [h1]
      · have h2 : ¬ e.inboundId ∈ ids := fun h => h1 (hin e he h)
        simp [h1, h2]
  · funext i n; simp only [Graph.dropVertices, Graph.rocksDropVertices, hp]
  · funext e n
    simp only [Graph.dropVertices, Graph.rocksDropVertices, Graph.touches, ← hp]
    cases he : g.edge e with
    | false =>
      have : g.eprop e n = none := by
        cases hh : g.eprop e n with
        | none => rfl
        | some w => exact absurd (ho.2 e n (by rw [hh]; simp)) (by rw [he]; simp)
      simp [this]
    | true =>
      by_cases h1 : e.outboundId ∈ ids
      · simp [h1]
      · have h2 : ¬ e.inboundId ∈ ids := fun h => h1 (hin e he h)
        simp [h1, h2]
  · rfl

theorem Graph.rocksDropEdges_eq {g : Graph} {es es' : List Edge} (ho : g.NoOrphans) (hd : g.NoDangling)
    (hp : ∀ i, i ∈ es ↔ i ∈ es') : g.dropEdges es = g.rocksDropEdges es' := by
  have hm : ∀ e, g.edge e = true → (e ∈ es'.filter (fun e => (g.vertex e.outboundId).isSome) ↔ e ∈ es) := by
    intro e he
    have := hd e he
    simp only [Graph.hasEndpoints, Bool.and_eq_true] at this
    rw [List.mem_filter, hp]
    exact ⟨fun h => h.1, fun h => ⟨h, this.1⟩⟩
  apply Graph.ext
  · rfl
  · funext e
    simp only [Graph.dropEdges, Graph.rocksDropEdges]
    cases he : g.edge e with
    | false => simp
    | true => simp only [hm e he]
  · rfl
  · funext e n
    simp only [Graph.dropEdges, Graph.rocksDropEdges]
    cases he : g.edge e with
    | false =>
      have : g.eprop e n = none := by
        cases hh : g.eprop e n with
        | none => rfl
        | some w => exact absurd (ho.2 e n (by rw [hh]; simp)) (by rw [he]; simp)
      simp [this]
    | true => simp only [hm e he]
  · rfl

/-- Bulk items of the common fragment. -/
theorem Graph.rocksBulk_eq {T : Identifier → Prop} {V : Json → Prop} {st : Json → Json} (hst : ∀ v, V v → st v = v)
    (items : List BulkInsertItem) : ∀ g : Graph, ItemsCommon T g items → (∀ i ∈ items, i.Values V) →
    items.foldl Graph.bulkItem g = items.foldl (Graph.rocksBulkItem st) g ∧
      ItemsChecked Graph.bulkItem g items ∧ ItemsChecked (Graph.rocksBulkItem st) g items := by
  induction items with
  | nil => intro g _ _; exact ⟨rfl, trivial, trivial⟩
  | cons i r ih =>
    rintro g ⟨h1, h2⟩ hv
    have he : g.bulkItem i = g.rocksBulkItem st i := by
      have hvi := hv i List.mem_cons_self
      cases i with
      | vertex v =>
        simp only [Graph.bulkItem, Graph.rocksBulkItem, Graph.createVertex]
        rcases h1.2 with h | h
        · rw [if_pos h]
        · rw [if_neg (by rw [h]; simp)]
          apply Graph.ext
          · funext i
            simp only [Graph.putVertex]
            split
            · next hi => rw [hi, h]
            · rfl
          all_goals rfl
      | edge e => simp only [Graph.bulkItem, Graph.rocksBulkItem, Graph.createEdge]; rw [if_pos h1.1]
      | vertexProperty id n v => simp only [Graph.bulkItem, Graph.rocksBulkItem]; rw [hst v hvi]
      | edgeProperty e n v => simp only [Graph.bulkItem, Graph.rocksBulkItem]; rw [hst v hvi]
    obtain ⟨i1, i2, i3⟩ := ih _ h2 (fun x hx => hv x (List.mem_cons_of_mem _ hx))
    refine ⟨?_, ⟨?_, i2⟩, ⟨?_, ?_⟩⟩
    · rw [List.foldl_cons, List.foldl_cons, i1, he]
    · cases i <;> first | exact h1 | trivial
    · cases i <;> first | exact h1 | trivial
    · rw [← he]; exact i3

theorem mem_perm_map {α β : Type} {l m : List α} (h : l.Perm m) (f : α → β) (x : β) : x ∈ l.map f ↔ x ∈ m.map f :=
  (h.map f).mem_iff

section
variable {g : Graph} {I J : IndexView} {C D : Conv} {V : Json → Prop} {ix : Prop} {X : Cfg}

/-- What the call must satisfy, given the value of its query. -/
def OpOk (V : Json → Prop) (T : Identifier → Prop) (ix : Prop) (g : Graph) (ans : Query → Res (List Output × Output)) : Op → Prop
  | .get q => q.Determined ∧ q.Asks V ∧ (ix ∨ q.NoIndex)
  | .delete q => (q.Determined ∧ q.Asks V ∧ (ix ∨ q.NoIndex)) ∧ ∀ inc vs, ans q = .ok (inc, .vertices vs) →
      ∀ e, g.edge e = true → e.inboundId ∈ vs.map (·.id) → e.outboundId ∈ vs.map (·.id)
  | .setProperties q _ x => (q.Determined ∧ q.Asks V ∧ (ix ∨ q.NoIndex)) ∧ V x
  | .bulkInsert items => (∀ i ∈ items, i.Values V) ∧ ItemsCommon T g items
  | .createEdge e => T e.t
  | _ => True

theorem SameReply.refl (a : Res Reply) : SameReply a a := by
  cases a with
  | error f => exact rfl
  | ok r => cases r <;> first | exact rfl | exact Zip.refl Output.Same.refl _

/-- Both datastores go to the same graph with the same reply. -/
theorem Agree.step (A : Agree g I J C D V ix) {T : Identifier → Prop} (hst : ∀ v, V v → X.stored v = v) (ho : g.NoOrphans)
    (hd : g.NoDangling) {ans ans' : Query → Res (List Output × Output)} (ha : ∀ q, Answers g I C q (ans q))
    (ha' : ∀ q, Answers g J D q (ans' q)) {op : Op} (hop : OpOk V T ix g ans op) {g1 g2 : Graph} {r1 r2 : Res Reply}
    (h1 : StepWith Sem.intended g ans op g1 r1) (h2 : StepWith (Sem.rocks X) g ans' op g2 r2) :
    g1 = g2 ∧ SameReply r1 r2 := by
  have same : ∀ q : Query, (q.Determined ∧ q.Asks V ∧ (ix ∨ q.NoIndex)) → SameAns (ans q) (ans' q) :=
    fun q h => (A.answers q _ _ h.2.1 h.2.2 (ha q) (ha' q)).2 h.1
  have eqs : ∀ {a b : Graph} {r r' : Res Reply}, a = b → r = r' → a = b ∧ SameReply r r' :=
    fun h h' => ⟨h, h' ▸ SameReply.refl _⟩
  cases op with
  | sync => exact eqs (h1.1.trans h2.1.symm) (h1.2.trans h2.2.symm)
  | createVertex v => exact eqs (h1.1.trans h2.1.symm) (h1.2.trans h2.2.symm)
  | createVertexFromType id t => exact eqs (h1.1.trans h2.1.symm) (h1.2.trans h2.2.symm)
  | createEdge e => exact eqs (h1.1.trans h2.1.symm) (h1.2.trans h2.2.symm)
  | indexProperty n => exact eqs (h1.1.trans h2.1.symm) (h1.2.trans h2.2.symm)
  | bulkInsert items =>
    refine eqs (h1.1.trans (Eq.trans ?_ h2.1.symm)) (h1.2.trans h2.2.symm)
    exact (Graph.rocksBulk_eq hst items g hop.2 hop.1).1
  | get q =>
    refine ⟨h1.1.trans h2.1.symm, ?_⟩
    rw [h1.2, h2.2]
    have hs := same q hop
    generalize ans q = a at hs
    generalize ans' q = b at hs
    cases a with
    | error f => cases b with
      | error f' => cases hs; exact rfl
      | ok p => exact hs.elim
    | ok p => cases b with
      | error f' => exact hs.elim
      | ok p' => exact hs.1.append (.cons hs.2 .nil)
  | delete q =>
    have hs := same q hop.1
    have hdel := hop.2
    simp only [StepWith] at h1 h2
    generalize ans q = a at hs h1 hdel
    generalize ans' q = b at hs h2
    cases a with
    | error f => cases b with
      | error f' => cases hs; exact eqs (h1.1.trans h2.1.symm) (h1.2.trans h2.2.symm)
      | ok p => exact hs.elim
    | ok p => cases b with
      | error f' => exact hs.elim
      | ok p' =>
        obtain ⟨inc, v⟩ := p
        obtain ⟨inc', w⟩ := p'
        obtain ⟨_, hvw⟩ := hs
        cases v <;> cases w <;> try exact hvw.elim
        case vertices.vertices vs ws =>
          refine eqs (h1.1.trans (Eq.trans ?_ h2.1.symm)) (h1.2.trans h2.2.symm)
          exact Graph.rocksDropVertices_eq ho (mem_perm_map hvw _) (hdel inc _ rfl)
        case edges.edges es fs =>
          refine eqs (h1.1.trans (Eq.trans ?_ h2.1.symm)) (h1.2.trans h2.2.symm)
          exact Graph.rocksDropEdges_eq ho hd (fun i => List.Perm.mem_iff hvw)
        case vertexProperties.vertexProperties l m =>
          refine eqs (h1.1.trans (Eq.trans ?_ h2.1.symm)) (h1.2.trans h2.2.symm)
          simp only [Graph.dropVProps, (List.Perm.flatMap_right _ hvw).mem_iff]
        case edgeProperties.edgeProperties l m =>
          refine eqs (h1.1.trans (Eq.trans ?_ h2.1.symm)) (h1.2.trans h2.2.symm)
          simp only [Graph.dropEProps, (List.Perm.flatMap_right _ hvw).mem_iff]
        case count.count m n => exact eqs (h1.1.trans h2.1.symm) (h1.2.trans h2.2.symm)
  | setProperties q n x =>
    have hs := same q hop.1
    simp only [StepWith] at h1 h2
    generalize ans q = a at hs h1
    generalize ans' q = b at hs h2
    cases a with
    | error f => cases b with
      | error f' => cases hs; exact eqs (h1.1.trans h2.1.symm) (h1.2.trans h2.2.symm)
      | ok p => exact hs.elim
    | ok p => cases b with
      | error f' => exact hs.elim
      | ok p' =>
        obtain ⟨inc, v⟩ := p
        obtain ⟨inc', w⟩ := p'
        obtain ⟨_, hvw⟩ := hs
        have hx : (Sem.rocks X).stored x = x := hst x hop.2
        cases v <;> cases w <;> try exact hvw.elim
        case vertices.vertices vs ws =>
          refine eqs (h1.1.trans (Eq.trans ?_ h2.1.symm)) (h1.2.trans h2.2.symm)
          rw [hx]
          simp only [Graph.putVProps, mem_perm_map hvw]; rfl
        case edges.edges es fs =>
          refine eqs (h1.1.trans (Eq.trans ?_ h2.1.symm)) (h1.2.trans h2.2.symm)
          rw [hx]
          simp only [Graph.putEProps, List.Perm.mem_iff hvw]; rfl
        all_goals exact eqs (h1.1.trans h2.1.symm) (h1.2.trans h2.2.symm)

end

/-! ### Histories -/

/-- All edge types are in `T`, and all property values in `V`. -/
def Graph.Within (T : Identifier → Prop) (V : Json → Prop) (g : Graph) : Prop :=
  (∀ e, g.edge e = true → T e.t) ∧ (∀ i n v, g.vprop i n = some v → V v) ∧ (∀ e n v, g.eprop e n = some v → V v)

section
variable {T : Identifier → Prop} {V : Json → Prop}

theorem Graph.Within.createVertex {g : Graph} (h : g.Within T V) (v : Vertex) : (g.createVertex v).Within T V := by
  unfold Graph.createVertex; split <;> exact h

theorem Graph.Within.createEdge {g : Graph} (h : g.Within T V) {e : Edge} (he : T e.t) : (g.createEdge e).Within T V := by
  unfold Graph.createEdge
  split
  · refine ⟨?_, h.2⟩
    intro x hx
    simp only [Graph.putEdge, Bool.or_eq_true, decide_eq_true_eq] at hx
    rcases hx with rfl | hx
    · exact he
    · exact h.1 x hx
  · exact h

theorem Graph.Within.putVProps {g : Graph} (h : g.Within T V) (ids : List Uuid) (n : Identifier) {x : Json} (hx : V x) :
    (g.putVProps ids n x).Within T V := by
  refine ⟨h.1, ?_, h.2.2⟩
  intro i m v hv
  simp only [Graph.putVProps] at hv
  split at hv
  · cases hv; exact hx
  · exact h.2.1 i m v hv

theorem Graph.Within.putEProps {g : Graph} (h : g.Within T V) (es : List Edge) (n : Identifier) {x : Json} (hx : V x) :
    (g.putEProps es n x).Within T V := by
  refine ⟨h.1, h.2.1, ?_⟩
  intro i m v hv
  simp only [Graph.putEProps] at hv
  split at hv
  · cases hv; exact hx
  · exact h.2.2 i m v hv

theorem Graph.Within.bulk (items : List BulkInsertItem) : ∀ {g : Graph}, g.Within T V → ItemsCommon T g items →
    (∀ i ∈ items, i.Values V) → (items.foldl Graph.bulkItem g).Within T V := by
  induction items with
  | nil => intro g h _ _; exact h
  | cons i r ih =>
    rintro g h ⟨h1, h2⟩ hv
    refine ih ?_ h2 (fun x hx => hv x (List.mem_cons_of_mem _ hx))
    have hvi := hv i List.mem_cons_self
    cases i with
    | vertex v => exact h.createVertex v
    | edge e => exact h.createEdge h1.2
    | vertexProperty id n v => exact h.putVProps _ n hvi
    | edgeProperty e n v => exact h.putEProps _ n hvi

theorem Graph.Within.step {g g' : Graph} {ix : Prop} {ans : Query → Res (List Output × Output)} {op : Op} {r : Res Reply}
    (h : g.Within T V) (hs : StepWith Sem.intended g ans op g' r) (hop : OpOk V T ix g ans op) : g'.Within T V := by
  cases op with
  | sync => rw [hs.1]; exact h
  | createVertex v => rw [hs.1]; exact h.createVertex v
  | createVertexFromType id t => rw [hs.1]; exact h.createVertex _
  | createEdge e => rw [hs.1]; exact h.createEdge hop
  | get q => rw [hs.1]; exact h
  | delete q =>
    simp only [StepWith] at hs
    generalize ans q = a at hs
    cases a with
    | error f => rw [hs.1]; exact h
    | ok p =>
      obtain ⟨inc, v⟩ := p
      cases v with
      | vertices vs =>
        rw [hs.1]
        refine ⟨?_, ?_, ?_⟩
        · intro e he
          simp only [Sem.intended, Graph.dropVertices] at he
          split at he
          · exact absurd he (by simp)
          · exact h.1 e he
        · intro i n v hv
          simp only [Sem.intended, Graph.dropVertices] at hv
          split at hv
          · exact absurd hv (by simp)
          · exact h.2.1 i n v hv
        · intro i n v hv
          simp only [Sem.intended, Graph.dropVertices] at hv
          split at hv
          · exact absurd hv (by simp)
          · exact h.2.2 i n v hv
      | edges es =>
        rw [hs.1]
        refine ⟨?_, h.2.1, ?_⟩
        · intro e he
          simp only [Sem.intended, Graph.dropEdges] at he
          split at he
          · exact absurd he (by simp)
          · exact h.1 e he
        · intro i n v hv
          simp only [Sem.intended, Graph.dropEdges] at hv
          split at hv
          · exact absurd hv (by simp)
          · exact h.2.2 i n v hv
      | vertexProperties l =>
        rw [hs.1]
        refine ⟨h.1, ?_, h.2.2⟩
        intro i n v hv
        simp only [Graph.dropVProps] at hv
        split at hv
        · exact absurd hv (by simp)
        · exact h.2.1 i n v hv
      | edgeProperties l =>
        rw [hs.1]
        refine ⟨h.1, h.2.1, ?_⟩
        intro i n v hv
        simp only [Graph.dropEProps] at hv
        split at hv
        · exact absurd hv (by simp)
        · exact h.2.2 i n v hv
      | count n => rw [hs.1]; exact h
  | setProperties q n x =>
    simp only [StepWith] at hs
    generalize ans q = a at hs
    cases a with
    | error f => rw [hs.1]; exact h
    | ok p =>
      obtain ⟨inc, v⟩ := p
      cases v with
      | vertices vs => rw [hs.1]; exact h.putVProps _ n hop.2
      | edges es => rw [hs.1]; exact h.putEProps _ n hop.2
      | _ => rw [hs.1]; exact h
  | bulkInsert items => rw [hs.1]; exact Graph.Within.bulk items h hop.2 hop.1
  | indexProperty n => rw [hs.1]; exact h

end

theorem Query.NoIndex.liveEdges : ∀ {q : Query}, q.NoIndex → q.LiveEdges
  | .incl i, h => NoIndex.liveEdges (q := i) h
  | .allVertex, _ | .rangeVertex _ _ _, _ | .specificVertex _, _ | .allEdge, _ | .specificEdge _, _ | .pipe _ _ _ _, _
  | .pipeProperty _ _, _ | .count _, _ => trivial

/-- The orders of edges agree on the types in `T`. -/
theorem edgeLt_agree {K : HashEq} {X : Cfg} {T : Identifier → Prop} (hT : SameOrder T) {a b : Edge} (ha : T a.t) (hb : T b.t) :
    (memConv K).edgeLt a b = (Rocks.conv X).edgeLt a b := by
  rw [Rocks.edgeLt_eq, Bool.eq_iff_iff]
  show Order.lt a b = true ↔ _
  rw [Edge.lt_iff, Order.prod_lt, Order.prod_lt]
  simp only [rocksEdgeLt, Bool.or_eq_true, Bool.and_eq_true, decide_eq_true_eq, beq_iff_eq]
  refine or_congr Iff.rfl (and_congr Iff.rfl ?_)
  have hlt : Order.lt a.t b.t = lexLt a.t.bytes b.t.bytes := rfl
  rw [hlt]
  constructor
  · rintro (h | ⟨h1, h2⟩)
    · rcases Nat.lt_trichotomy a.t.bytes.length b.t.bytes.length with hl | hl | hl
      · exact Or.inl hl
      · exact Or.inr ⟨hl, Or.inl h⟩
      · have := lexLt_trans _ _ _ h (hT b.t a.t hb ha hl)
        rw [lexLt_irrefl] at this; exact absurd this (by simp)
    · exact Or.inr ⟨by rw [h1], Or.inr ⟨h1, h2⟩⟩
  · rintro (h | ⟨_, h | ⟨h1, h2⟩⟩)
    · exact Or.inl (hT a.t b.t ha hb h)
    · exact Or.inl h
    · exact Or.inr ⟨h1, h2⟩

/-- States of the two datastores after the same history. -/
structure Sim (K : HashEq) (b : Build) (X : Cfg) (T : Identifier → Prop) (V : Json → Prop) (d : MemDb) (s : Rocks) : Prop where
  reach : (memStore K b).Reach d
  alive : d.poisoned = false
  mem : MemDb.CInv K b d
  rocks : Rocks.CInv X s
  same : d.mem.graph = Rocks.graph X s
  max : d.mem.graph.vertex Uuid.max = none
  within : d.mem.graph.Within T V

section
variable {K : HashEq} {b : Build} {X : Cfg} {T : Identifier → Prop} {V : Json → Prop}

theorem Sim.init : Sim K b X T V MemDb.new Rocks.init := by
  have hg : MemDb.new.mem.graph = Graph.empty := Mem.graph_empty
  refine ⟨⟨[], rfl, rfl, memStore_ok []⟩, rfl, MemDb.cinv_new, Rocks.CInv.init, ?_, by rw [hg]; rfl, ?_⟩
  · rw [hg]; rfl
  · rw [hg]
    refine ⟨?_, ?_, ?_⟩
    · intro e he; exact absurd he (by simp [Graph.empty])
    · intro i n v hv; exact absurd hv (by simp [Graph.empty])
    · intro i n v hv; exact absurd hv (by simp [Graph.empty])

theorem Sim.agree {d : MemDb} {s : Rocks} (h : Sim K b X T V d s) (hT : SameOrder T)
    (hH : ∀ w v, V w → V v → K.same w v = (X.H w.stream == X.H v.stream)) :
    Agree d.mem.graph (d.mem.index K) (Rocks.index X s) (memConv K) (Rocks.conv X) V (b = .debug) := by
  have hix := fun (hb : b = .debug) n (hn : d.mem.graph.indexed n = true) =>
    Mem.index_exact h.mem.wf.distinct (h.mem.wf.sound hb) h.mem.full h.mem.noOrphans n hn
  have hrx := h.rocks.index_view
  rw [← h.same] at hrx
  have hvx : ∀ i, d.mem.graph.vertex i = none → ((s.kv .vertices).contains (Rocks.vertexKey X i)) = false := by
    intro i hi
    rw [h.same] at hi
    cases hc : (s.kv .vertices).contains (Rocks.vertexKey X i) with
    | false => rfl
    | true => rw [Rocks.vertex_isSome s h.rocks.inv.wf, hi] at hc; exact absurd hc (by simp)
  refine ⟨fun x y hx hy => edgeLt_agree hT (h.within.1 x hx) (h.within.1 y hy),
    fun x y hx hy => edgeLt_agree hT (a := x.reversed) (b := y.reversed) (h.within.1 x hx) (h.within.1 y hy),
    ?_, fun _ _ => rfl, ?_, ?_, ?_, ?_, ?_, fun _ => h.rocks.index_nodup⟩
  · intro i hi
    simp only [memConv, decide_eq_false_iff_not]
    rintro rfl; exact hi h.max
  · intro hb n hn i
    rw [(hix hb n hn).1 i, Bool.eq_iff_iff]
    simp only [Graph.exactIndex, Bool.and_eq_true, Option.isSome_iff_ne_none]
    cases hv : d.mem.graph.vertex i with
    | none =>
      have : (Rocks.index X s).vPresent n i = false := by
        show (_ && _) = false
        rw [hvx i hv, Bool.and_false]
      simp [this]
    | some t => rw [(hrx n hn).1 i (by rw [hv]; simp)]; simp
  · intro hb n hn v hVv i
    rw [(hix hb n hn).2.1 v i, Bool.eq_iff_iff]
    simp only [Graph.exactIndex, Bool.and_eq_true, Option.isSome_iff_ne_none]
    cases hv : d.mem.graph.vertex i with
    | none =>
      have : (Rocks.index X s).vValue n v i = false := by
        show (_ && _) = false
        rw [hvx i hv, Bool.and_false]
      simp [this]
    | some t =>
      rw [(hrx n hn).2.1 v i (by rw [hv]; simp)]
      cases hp : d.mem.graph.vprop i n with
      | none => simp
      | some w =>
        have := hH w v (h.within.2.1 i n w hp) hVv
        simp [memConv, Rocks.conv, this]
  · intro hb n hn e
    rw [(hix hb n hn).2.2.1 e, Bool.eq_iff_iff, (hrx n hn).2.2.1 e]
    simp only [Graph.exactIndex, Bool.and_eq_true, Option.isSome_iff_ne_none]
  · intro hb n hn v hVv e
    rw [(hix hb n hn).2.2.2 v e, Bool.eq_iff_iff, (hrx n hn).2.2.2 v e]
    simp only [Graph.exactIndex, Bool.and_eq_true]
    refine and_congr Iff.rfl ?_
    cases hp : d.mem.graph.eprop e n with
    | none => simp
    | some w =>
      have := hH w v (h.within.2.2 e n w hp) hVv
      simp [memConv, Rocks.conv, this]
  · intro _; exact trivial

/-- The calls of the common fragment satisfy all conditions under which the datastores behave. -/
theorem Sim.conditions {d : MemDb} {s : Rocks} (h : Sim K b X T V d s) (hV : ∀ v, V v → X.codec.dec (X.codec.enc v) = some v)
    (O : HashOrder) {op : Op} (hop : (memStore K b).OpCommon b V T O d op) :
    OpOk V T (b = .debug) d.mem.graph (eval (Mem.reads K O d.mem)) op ∧ op.Checked b d.mem.graph ∧ op.AvoidsMax ∧
      op.ValuesOk (Rocks.CanRead X) ∧ op.IndexSafe X (Rocks.graph X s) := by
  have hst : ∀ v, V v → X.stored v = v := by intro v hv; simp [Cfg.stored, hV v hv]
  have hcr : ∀ v, V v → Rocks.CanRead X v := fun v hv => ⟨v, hV v hv⟩
  have hsh : ∀ v, V v → Rocks.SameHash X v := by intro v hv; unfold Rocks.SameHash; rw [hst v hv]
  cases op with
  | sync => exact ⟨trivial, trivial, trivial, trivial, trivial⟩
  | createVertex v => exact ⟨trivial, trivial, hop, trivial, trivial⟩
  | createVertexFromType id t => exact ⟨trivial, trivial, hop, trivial, trivial⟩
  | createEdge e => exact ⟨hop, trivial, trivial, trivial, trivial⟩
  | get q => exact ⟨hop, trivial, trivial, trivial, trivial⟩
  | delete q =>
    refine ⟨⟨hop.1, ?_⟩, trivial, trivial, trivial, trivial⟩
    intro inc vs he
    refine hop.2 vs ?_
    rw [(memConforms K b).value_eq h.reach O q]
    show Except.map (·.2) (eval (Mem.reads K O d.mem) q) = _
    rw [he]; rfl
  | setProperties q n x =>
    refine ⟨hop, ?_, trivial, hcr x hop.2, hsh x hop.2⟩
    rcases hop.1.2.2 with hb | hb
    · exact Or.inl hb
    · exact Or.inr hb.liveEdges
  | bulkInsert items =>
    obtain ⟨h1, h2, h3⟩ := hop
    have hb := Graph.rocksBulk_eq hst items _ h3 h1
    have hval : ∀ {P : Json → Prop}, (∀ v, V v → P v) → ∀ i ∈ items, i.Values P := by
      intro P hP i hi
      have := h1 i hi
      cases i <;> first | trivial | exact hP _ this
    refine ⟨⟨h1, h3⟩, hb.2.1, ?_, hval hcr, hval hsh, h2, ?_⟩
    · have hmax : ∀ (items : List BulkInsertItem) (g : Graph), ItemsCommon T g items →
          ∀ v, BulkInsertItem.vertex v ∈ items → v.id ≠ Uuid.max := by
        intro items
        induction items with
        | nil => intro g _ v hv; exact absurd hv (by simp)
        | cons i r ih =>
          rintro g ⟨c1, c2⟩ v hv
          rcases List.mem_cons.1 hv with rfl | hv
          · exact c1.1
          · exact ih _ c2 v hv
      exact hmax items _ h3
    · rw [← h.same]; exact hb.2.2
  | indexProperty n => exact ⟨trivial, trivial, trivial, trivial, trivial⟩

theorem Sim.step {d : MemDb} {s : Rocks} (h : Sim K b X T V d s) (hT : SameOrder T)
    (hV : ∀ v, V v → X.codec.dec (X.codec.enc v) = some v)
    (hH : ∀ w v, V w → V v → K.same w v = (X.H w.stream == X.H v.stream)) (O : HashOrder) (P : IdentOrder) {op : Op}
    (hop : (memStore K b).OpCommon b V T O d op) :
    Sim K b X T V (MemDb.step K b O op d).1 (Rocks.step X P op s).1 ∧
      SameReply (MemDb.step K b O op d).2 (Rocks.step X P op s).2 := by
  have hst : ∀ v, V v → X.stored v = v := by intro v hv; simp [Cfg.stored, hV v hv]
  obtain ⟨c1, c2, c3, c4, c5⟩ := h.conditions hV O hop
  have hr := Rocks.dbStep_spec P op s h.rocks.inv c4
  have hnp := Rocks.step_no_panic P op s h.rocks.inv c4
  rcases MemDb.step_cases (K := K) (b := b) O op h.alive h.mem.wf with ⟨h1, h2⟩ | ⟨_, _, _, h3⟩
  · have hrs := hr.stepWith
    rw [← h.same] at hrs
    have key := (h.agree hT hH).step hst h.mem.noOrphans h.mem.noDangling
      (fun q => eval_answers (Mem.faithful K O d.mem h1.rev) q)
      (fun q => by rw [h.same]; exact eval_answers (Rocks.faithful s h.rocks.inv.wf h.rocks.inv.values.readable) q)
      c1 h1.stepWith hrs
    have halive : (MemDb.step K b O op d).1.poisoned = false := by
      cases hp : (MemDb.step K b O op d).1.poisoned with
      | false => rfl
      | true =>
        exfalso
        have hk := key.2
        rw [h2.1 hp] at hk
        exact hnp hk.symm
    have hcm := MemDb.cinv_step (K := K) (b := b) O op (fun _ => h.mem) c2 halive
    refine ⟨⟨?_, halive, hcm, h.rocks.step P op c4 c5, key.1, h1.step.avoidsMax h.max c3, h.within.step h1.stepWith c1⟩, key.2⟩
    refine Store.Reach.next (S := memStore K b) h.reach O op (memStore_valuesOk op) ?_
    show (!(MemDb.step K b O op d).1.poisoned) = true
    rw [halive]; rfl
  · exact absurd h.mem.full h3

/-- **C28 on the common fragment.** -/
theorem stores_agree (hT : SameOrder T) (hV : ∀ v, V v → X.codec.dec (X.codec.enc v) = some v)
    (hH : ∀ w v, V w → V v → K.same w v = (X.H w.stream == X.H v.stream)) :
    StoresAgree (memStore K b) (rocksStore X)
      (fun hist => (memStore K b).CommonHist b V T (hist.map (fun p => (p.1.1, p.2))) (memStore K b).init) := by
  have key : ∀ (hist : List ((HashOrder × IdentOrder) × Op)) (d : MemDb) (s : Rocks), Sim K b X T V d s →
      (memStore K b).CommonHist b V T (hist.map (fun p => (p.1.1, p.2))) d →
      Zip SameReply ((memStore K b).replies (hist.map (fun p => (p.1.1, p.2))) d)
        ((rocksStore X).replies (hist.map (fun p => (p.1.2, p.2))) s) := by
    intro hist
    induction hist with
    | nil => intro d s _ _; exact .nil
    | cons a r ih =>
      obtain ⟨⟨O, P⟩, op⟩ := a
      rintro d s hs ⟨h1, h2⟩
      obtain ⟨h3, h4⟩ := hs.step hT hV hH O P h1
      exact .cons h4 (ih _ _ h3 h2)
  intro hist hh
  exact key hist _ _ Sim.init hh

end
end IndraDB
