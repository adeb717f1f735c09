import Verif.Props.Made
import Verif.Props.JsonFloat
/-
C96: sessions of the command line client, as bytes.
-/
set_option linter.unusedSimpArgs false
namespace IndraDB

variable {letter : Char → Bool} {F : Floats}

theorem Store.cliRun_append (S : Store) (b : List (S.Env × Uuid × Command)) : ∀ (a : List (S.Env × Uuid × Command)) (s : S.State),
    S.cliRun letter F (a ++ b) s = ((S.cliRun letter F b (S.cliRun letter F a s).1).1,
      (S.cliRun letter F a s).2 ++ (S.cliRun letter F b (S.cliRun letter F a s).1).2)
  | [], _ => rfl
  | (env, g, c) :: r, s => by
    simp only [List.cons_append, Store.cliRun, S.cliRun_append b r]

theorem Store.cliRun_length (S : Store) : ∀ (a : List (S.Env × Uuid × Command)) (s : S.State),
    (S.cliRun letter F a s).2.length = a.length
  | [], _ => rfl
  | (env, g, c) :: r, s => by simp only [Store.cliRun, List.length_cons, S.cliRun_length r]

theorem reported_vertices {op : Op} {r : Reply} {l : List Vertex} (h : reported op r = .ok (.vertices (some l))) :
    r = .outputs [.vertices l] := by
  unfold reported at h
  split at h
  · split at h <;> cases h
  · split at h <;> cases h
  all_goals first | cases h | skip
  rfl

theorem reported_properties {op : Op} {r : Reply} {l : List VertexProperties} (h : reported op r = .ok (.vertexProperties (some l))) :
    r = .outputs [.vertexProperties l] := by
  unfold reported at h
  split at h
  · split at h <;> cases h
  · split at h <;> cases h
  all_goals first | cases h | skip
  rfl

theorem vprops_fit {J : JsonText} {vertex : Vertex} {n : Identifier} {v : Json} (hv : vertex.t.Valid letter) (hn : n.Valid letter)
    (hl : (strBytes (J.print v)).length ≤ 4000000) : (Reply.outputs [.vertexProperties [⟨vertex, [⟨n, v⟩]⟩]]).Fits J := by
  intro o ho
  cases List.mem_singleton.1 ho
  have h1 := lenField_le _ 400 (vertex_size' letter hv) (by decide)
  have h2 := lenField_le _ 260 (ident_size letter hn) (by decide)
  have h3 := bytesField_le _ 4000000 hl (by decide)
  have h4 := lenField_le (bytesField (strBytes (J.print v)).length) 4000100 (by omega) (by decide)
  have h5 := lenField_le (lenField n.toProto.size + lenField (bytesField (strBytes (J.print v)).length)) 4000600 (by omega) (by decide)
  have h6 := lenField_le (lenField vertex.toProto.size + (lenField (lenField n.toProto.size + lenField (bytesField (strBytes (J.print v)).length)) + 0))
    4001500 (by omega) (by decide)
  have h7 := lenField_le (lenField (lenField vertex.toProto.size + (lenField (lenField n.toProto.size + lenField (bytesField (strBytes (J.print v)).length)) + 0)) + 0)
    4002000 (by omega) (by decide)
  simp only [Output.toProto, VertexProperties.toProto, NamedProperty.toProto, Json.toProto, POutput.size, PVertexProperties.size,
    PNamedProperty.size, PJson.size, msgField, List.map_cons, List.map_nil, repField]
  omega

theorem names_one {s : String} {n n' : Identifier} (h : Names letter s n) (h' : Names letter s n') : n = n' := by
  have : n.bytes = n'.bytes := h.1.trans h'.1.symm
  cases n; cases n'; simp only at this; subst this; rfl

theorem Store.reads_back (S : Store) (hF : F.Proper) (ht : S.Typed)
    (hx : S.CommandsExact letter (serdeText F) UuidText.parseStr) (hok : ∀ v, (serdeText F).Faithful v → S.okValue v)
    (hq : S.VertexQueriesExact) {bad : Uuid → Prop} (hpp : S.PipePropertiesExact bad) {stored : Json → Json}
    (hs : S.SetPropertiesExact stored) (hst : ∀ v, (serdeText F).Faithful v → stored v = v) (hr : S.ReadsPure)
    (hcl : S.RepliesClosed (·.Valid letter) (serdeText F).Faithful) (hg : S.Reading)
    (hA : ∀ env op s r, (S.step env op s).2 = .ok r → S.alive s = true ∧ S.alive (S.step env op s).1 = true)
    (hcs : ∀ cmds, (∀ x ∈ cmds, x.2.2.Modest letter F x.2.1) → cmds.length < 2 ^ 64 → S.CountsSmall letter F cmds S.init) :
    S.ReadsBack letter F := by
  intro cmds x y z name text u v e1 e2 e3 g1 g2 g3 all hm hc sx sy sz sj l vertex last hl hout
  have hc := hc.elim (hcs _ hm) id
  obtain ⟨_, h0, hh0, ha0, hs0, hc0⟩ := S.session_from hF ht hx hok
    [(e1, g1, .getVertex x), (e2, g2, .setVertexProperty y name text), (e3, g3, .getVertexProperty z (some name))]
    cmds [] (fun _ h => nomatch h) (fun _ h => nomatch h) (fun p hp => hm p (List.mem_append_left _ hp)) hc
  rw [show S.run [] S.init = S.init from rfl] at hs0
  simp only [all, Store.cliRun_append, hs0, Store.cliRun] at hout
  obtain ⟨_, hout⟩ := List.append_inj hout ((S.cliRun_length cmds _).trans hl.symm)
  simp only [List.cons.injEq, and_true] at hout
  obtain ⟨o1, o2, o3⟩ := hout
  obtain ⟨k1, h1, hh1, ha1, hs1⟩ := S.session_step hF ht hx hok hh0 ha0 e1 g1 (.getVertex x) (by rintro _ _ _ ⟨⟩) hc0.1
  have hc1 := hc0.2 _ _ k1
  rw [hs1] at o2 o3 hc1
  have hm2 : (Command.setVertexProperty y name text).Modest letter F g2 :=
    hm (e2, g2, .setVertexProperty y name text) (List.mem_append_right _ (by simp))
  obtain ⟨k2, h2, hh2, ha2, hs2⟩ := S.session_step hF ht hx hok hh1 ha1 e2 g2 (.setVertexProperty y name text) hm2 hc1.1
  have hc2 := hc1.2 _ _ k2
  rw [hs2] at o3 hc2
  obtain ⟨k3, -⟩ := S.session_step hF ht hx hok hh2 ha2 e3 g3 (.getVertexProperty z (some name)) (by rintro _ _ _ ⟨⟩) hc2.1
  rw [o1, hs1] at k1
  rw [o2, hs2] at k2
  rw [o3] at k3
  -- the vertex
  obtain ⟨hv1, hsame, hval1, hal1⟩ : (S.step e1 (.get (.specificVertex [u])) (S.run h0 S.init)).2 = .ok (.outputs [.vertices [vertex]]) ∧
      S.run h1 S.init = S.run h0 S.init ∧ vertex.t.Valid letter ∧ S.alive (S.run h0 S.init) = true := by
    generalize hp : (Except.ok (.vertices (some [vertex])) : Except CliError Printed) = p at k1
    generalize hs' : S.run h1 S.init = s' at k1
    cases k1 with
    | ping h => cases h
    | refused => cases hp
    | long => cases hp
    | failed => cases hp
    | panicked => cases hp
    | lost => cases hp
    | done hop hst' hf =>
      have hr' := reported_vertices hp.symm
      subst hr'
      cases hop with
      | getVertex hu =>
        cases C95_one hu sx
        have hal := hA e1 _ _ _ (by rw [hst'])
        have hpure := hr _ ⟨h0, rfl, hal.1, hh0⟩ e1 (.specificVertex [u]) (by rw [hst']; simp)
        rw [hst'] at hpure
        refine ⟨by rw [hst'], hpure, ?_, hal.1⟩
        have := hcl (h0 ++ [(e1, .get (.specificVertex [u]))]) ?_ ?_ (.outputs [.vertices [vertex]]) ?_
        · exact this _ List.mem_cons_self vertex List.mem_cons_self
        · intro p hp
          rcases List.mem_append.1 hp with hp | hp
          · exact hh0 p hp
          · rw [List.mem_singleton.1 hp]; trivial
        · intro p hp
          rcases List.mem_append.1 hp with hp | hp
          · exact ha0 p hp
          · rw [List.mem_singleton.1 hp]; trivial
        · rw [Store.replies_append]
          exact List.mem_append_right _ (by simp [Store.replies, hst'])
  have hreach : S.Reach (S.run h0 S.init) := ⟨h0, rfl, hal1, hh0⟩
  have hvalue : ∀ {env q s o}, (S.step env (.get q) s).2 = .ok (.outputs [o]) → S.value env q s = .ok o := by
    intro env q s o h; simp [Store.value, Store.ask, h]
  rw [hsame] at k2
  -- the vertices the id stands for, whatever the environment
  have hlook : (S.graph (S.run h0 S.init)).lookup [u] = [vertex] := by
    have h1 := (hq _ hreach e1).2.2 [u]
    simp only [Store.ask, hv1, Except.ok.injEq, List.cons.injEq, Output.vertices.injEq, and_true] at h1
    exact h1.symm
  have hid : vertex.id = u := by
    simp only [Graph.lookup, List.filterMap_cons, List.filterMap_nil] at hlook
    cases hgv : (S.graph (S.run h0 S.init)).vertex u with
    | none => simp [hgv] at hlook
    | some t => simp [hgv] at hlook; rw [← hlook]
  have hvs : ∀ env, S.value env (.specificVertex [u]) (S.run h0 S.init) = .ok (.vertices [vertex]) := by
    intro env
    have := (hq _ hreach env).2.2 [u]
    rw [hlook] at this
    simp [Store.value, this]
  -- the property
  obtain ⟨n, hn, hgr, hreach2, hfv, hlen⟩ : ∃ n, Names letter name n ∧
      S.graph (S.run h2 S.init) = (S.graph (S.run h0 S.init)).putVProps [u] n v ∧ S.Reach (S.run h2 S.init) ∧
      (serdeText F).Faithful v ∧ (strBytes ((serdeText F).print v)).length ≤ 4000000 := by
    generalize hp : (Except.ok .nothing : Except CliError Printed) = p at k2
    generalize hs' : S.run h2 S.init = s' at k2
    cases k2 with
    | ping h => cases h
    | refused => cases hp
    | long => cases hp
    | failed => cases hp
    | panicked => cases hp
    | lost => cases hp
    | done hop hst' hf =>
      have hmod := fun q n v h => hm2 q n v h
      cases hop with
      | setVertexProperty hu hn hj =>
        cases C95_one hu sy
        have hv := JsonGrammar.text_unique hj sj
        subst hv
        obtain ⟨m1, m2⟩ := hmod _ _ _ (.setVertexProperty hu hn hj)
        have hf' := hj.faithful hF m1
        have hal := hA e2 _ _ _ (by rw [hst'])
        have := ((hs _ hreach e2 _ _ _ (hok _ hf') (by rw [hst']; simp)).1 _ (hvs e2)).2
        rw [hst', hst _ hf'] at this
        simp only [List.map_cons, List.map_nil, hid] at this
        refine ⟨_, hn, this, ⟨h2, hs'.symm, ?_, hh2⟩, hf', m2⟩
        rw [hst'] at hal; exact hal.2
  refine ⟨n, hn, ?_⟩
  have hvs2 : S.value e3 (.specificVertex [u]) (S.run h2 S.init) = .ok (.vertices [vertex]) := by
    have := (hq _ hreach2 e3).2.2 [u]
    rw [hgr] at this
    have hlook' : ((S.graph (S.run h0 S.init)).putVProps [u] n v).lookup [u] = [vertex] := hlook
    rw [hlook'] at this
    simp [Store.value, this]
  have hfin := ((hpp _ hreach2 e3 (.specificVertex [u])).1 _ hvs2).1 n
  rw [hgr] at hfin
  simp only [List.filterMap_cons, List.filterMap_nil, Graph.putVProps, hid, List.mem_singleton, and_self, if_true,
    Option.map_some] at hfin
  -- the reply
  have hres : (S.step e3 (.get (.pipeProperty (.specificVertex [u]) (some n))) (S.run h2 S.init)).2 =
      .ok (.outputs [.vertexProperties [⟨vertex, [⟨n, v⟩]⟩]]) := by
    have hask : ∃ l, (S.step e3 (.get (.pipeProperty (.specificVertex [u]) (some n))) (S.run h2 S.init)).2 = .ok (.outputs l) ∧
        l.getLast? = some (.vertexProperties [⟨vertex, [⟨n, v⟩]⟩]) := by
      unfold Store.value Store.ask at hfin
      split at hfin
      · rename_i l h
        split at h
        · rename_i l' h'
          cases h
          refine ⟨l, h', ?_⟩
          split at hfin
          · rename_i o ho; rw [ho]; cases hfin; rfl
          · cases hfin
        · cases h
        · cases h
      · cases hfin
    obtain ⟨l, h1, h2'⟩ := hask
    obtain ⟨l', p, e, hp, hrep⟩ := get_printed letter (serdeText F) UuidText.parseStr S hg g3
      ((means_iff g3 _ _).1 (.getVertexProperty sz hn)) e3 _ _ h1
    cases e
    have : p = .vertexProperties (some [⟨vertex, [⟨n, v⟩]⟩]) := by
      simp only [printer, extractVertexProperties, h2', Option.some.injEq] at hp
      exact hp.symm
    subst this
    rw [h1]
    exact congrArg _ (reported_properties hrep)
  have hfit := vprops_fit (J := serdeText F) hval1 hn.valid hlen
  generalize S.run h2 S.init = s2 at hres k3
  have key : ∀ {op}, Command.Means letter F g3 (.getVertexProperty z (some name)) op →
      op = .get (.pipeProperty (.specificVertex [u]) (some n)) := by
    intro op h
    cases h with
    | getVertexProperty hu hn' => rw [C95_one hu sz, names_one hn' hn]
  generalize (S.cliBytes letter F e3 g3 (.getVertexProperty z (some name)) s2).1 = s3 at k3
  cases k3 with
  | ping h => cases h
  | refused _ h => exact absurd ⟨_, .getVertexProperty sz hn⟩ h
  | done hop hst' _ => cases key hop; rw [hst'] at hres; cases hres; rfl
  | long hop hst' hf => cases key hop; rw [hst'] at hres; cases hres; exact absurd hfit hf
  | failed hop hst' => cases key hop; rw [hst'] at hres; cases hres
  | panicked hop hst' => cases key hop; rw [hst'] at hres; cases hres
  | lost hop hst' => cases key hop; rw [hst'] at hres; cases hres

theorem reported_edges {op : Op} {r : Reply} {l : List Edge} (h : reported op r = .ok (.edges (some l))) :
    r = .outputs [.edges l] := by
  unfold reported at h
  split at h
  · split at h <;> cases h
  · split at h <;> cases h
  all_goals first | cases h | skip
  rfl

theorem reported_edgeProperties {op : Op} {r : Reply} {l : List EdgeProperties} (h : reported op r = .ok (.edgeProperties (some l))) :
    r = .outputs [.edgeProperties l] := by
  unfold reported at h
  split at h
  · split at h <;> cases h
  · split at h <;> cases h
  all_goals first | cases h | skip
  rfl

theorem eprops_fit {J : JsonText} {edge : Edge} {n : Identifier} {v : Json} (hv : edge.t.Valid letter) (hn : n.Valid letter)
    (hl : (strBytes (J.print v)).length ≤ 4000000) : (Reply.outputs [.edgeProperties [⟨edge, [⟨n, v⟩]⟩]]).Fits J := by
  intro o ho
  cases List.mem_singleton.1 ho
  have h1 := lenField_le _ 400 (edge_size letter hv) (by decide)
  have h2 := lenField_le _ 260 (ident_size letter hn) (by decide)
  have h3 := bytesField_le _ 4000000 hl (by decide)
  have h4 := lenField_le (bytesField (strBytes (J.print v)).length) 4000100 (by omega) (by decide)
  have h5 := lenField_le (lenField n.toProto.size + lenField (bytesField (strBytes (J.print v)).length)) 4000600 (by omega) (by decide)
  have h6 := lenField_le (lenField edge.toProto.size + (lenField (lenField n.toProto.size + lenField (bytesField (strBytes (J.print v)).length)) + 0))
    4001500 (by omega) (by decide)
  have h7 := lenField_le (lenField (lenField edge.toProto.size + (lenField (lenField n.toProto.size + lenField (bytesField (strBytes (J.print v)).length)) + 0)) + 0)
    4002000 (by omega) (by decide)
  simp only [Output.toProto, EdgeProperties.toProto, NamedProperty.toProto, Json.toProto, POutput.size, PEdgeProperties.size,
    PNamedProperty.size, PJson.size, msgField, List.map_cons, List.map_nil, repField]
  omega

theorem edge_one {o t i : String} {e e' : Edge} (h : SpellsEdge letter o t i e) (h' : SpellsEdge letter o t i e') : e = e' := by
  obtain ⟨h1, h2, h3⟩ := h
  obtain ⟨h1', h2', h3'⟩ := h'
  cases e; cases e'
  simp only [Edge.mk.injEq]
  exact ⟨C95_one h1 h1', names_one h2 h2', C95_one h3 h3'⟩

theorem Store.reads_back_edge (S : Store) (hF : F.Proper) (ht : S.Typed)
    (hx : S.CommandsExact letter (serdeText F) UuidText.parseStr) (hok : ∀ v, (serdeText F).Faithful v → S.okValue v)
    {lt : Edge → Edge → Bool} (hq : S.EdgeQueriesExact lt) {bad : Uuid → Prop} (hpp : S.PipePropertiesExact bad) {stored : Json → Json}
    (hs : S.SetPropertiesExact stored) (hst : ∀ v, (serdeText F).Faithful v → stored v = v) (hr : S.ReadsPure)
    (hcl : S.RepliesClosed (·.Valid letter) (serdeText F).Faithful) (hg : S.Reading)
    (hA : ∀ env op s r, (S.step env op s).2 = .ok r → S.alive s = true ∧ S.alive (S.step env op s).1 = true)
    (hcs : ∀ cmds, (∀ x ∈ cmds, x.2.2.Modest letter F x.2.1) → cmds.length < 2 ^ 64 → S.CountsSmall letter F cmds S.init) :
    S.ReadsBackEdge letter F := by
  intro cmds o1 t1 i1 o2 t2 i2 o3 t3 i3 name text e v e1 e2 e3 g1 g2 g3 all hm hc sx sy sz sj l edge last hl hout
  have hc := hc.elim (hcs _ hm) id
  obtain ⟨_, h0, hh0, ha0, hs0, hc0⟩ := S.session_from hF ht hx hok
    [(e1, g1, .getEdge o1 t1 i1), (e2, g2, .setEdgeProperty o2 t2 i2 name text), (e3, g3, .getEdgeProperty o3 t3 i3 (some name))]
    cmds [] (fun _ h => nomatch h) (fun _ h => nomatch h) (fun p hp => hm p (List.mem_append_left _ hp)) hc
  rw [show S.run [] S.init = S.init from rfl] at hs0
  simp only [all, Store.cliRun_append, hs0, Store.cliRun] at hout
  obtain ⟨_, hout⟩ := List.append_inj hout ((S.cliRun_length cmds _).trans hl.symm)
  simp only [List.cons.injEq, and_true] at hout
  obtain ⟨p1, p2, p3⟩ := hout
  obtain ⟨k1, h1, hh1, ha1, hs1⟩ := S.session_step hF ht hx hok hh0 ha0 e1 g1 (.getEdge o1 t1 i1) (by rintro _ _ _ ⟨⟩) hc0.1
  have hc1 := hc0.2 _ _ k1
  rw [hs1] at p2 p3 hc1
  have hm2 : (Command.setEdgeProperty o2 t2 i2 name text).Modest letter F g2 :=
    hm (e2, g2, .setEdgeProperty o2 t2 i2 name text) (List.mem_append_right _ (by simp))
  obtain ⟨k2, h2, hh2, ha2, hs2⟩ := S.session_step hF ht hx hok hh1 ha1 e2 g2 (.setEdgeProperty o2 t2 i2 name text) hm2 hc1.1
  have hc2 := hc1.2 _ _ k2
  rw [hs2] at p3 hc2
  obtain ⟨k3, -⟩ := S.session_step hF ht hx hok hh2 ha2 e3 g3 (.getEdgeProperty o3 t3 i3 (some name)) (by rintro _ _ _ ⟨⟩) hc2.1
  rw [p1, hs1] at k1
  rw [p2, hs2] at k2
  rw [p3] at k3
  -- the vertex
  obtain ⟨hv1, hsame, hval1, hal1⟩ : (S.step e1 (.get (.specificEdge [e])) (S.run h0 S.init)).2 = .ok (.outputs [.edges [edge]]) ∧
      S.run h1 S.init = S.run h0 S.init ∧ edge.t.Valid letter ∧ S.alive (S.run h0 S.init) = true := by
    generalize hp : (Except.ok (.edges (some [edge])) : Except CliError Printed) = p at k1
    generalize hs' : S.run h1 S.init = s' at k1
    cases k1 with
    | ping h => cases h
    | refused => cases hp
    | long => cases hp
    | failed => cases hp
    | panicked => cases hp
    | lost => cases hp
    | done hop hst' hf =>
      have hr' := reported_edges hp.symm
      subst hr'
      cases hop with
      | getEdge hu =>
        cases edge_one hu sx
        have hal := hA e1 _ _ _ (by rw [hst'])
        have hpure := hr _ ⟨h0, rfl, hal.1, hh0⟩ e1 (.specificEdge [e]) (by rw [hst']; simp)
        rw [hst'] at hpure
        refine ⟨by rw [hst'], hpure, ?_, hal.1⟩
        have := hcl (h0 ++ [(e1, .get (.specificEdge [e]))]) ?_ ?_ (.outputs [.edges [edge]]) ?_
        · exact this _ List.mem_cons_self edge List.mem_cons_self
        · intro p hp
          rcases List.mem_append.1 hp with hp | hp
          · exact hh0 p hp
          · rw [List.mem_singleton.1 hp]; trivial
        · intro p hp
          rcases List.mem_append.1 hp with hp | hp
          · exact ha0 p hp
          · rw [List.mem_singleton.1 hp]; intro e' he; cases List.mem_singleton.1 he; exact hu.2.1.valid
        · rw [Store.replies_append]
          exact List.mem_append_right _ (by simp [Store.replies, hst'])
  have hreach : S.Reach (S.run h0 S.init) := ⟨h0, rfl, hal1, hh0⟩
  have hvalue : ∀ {env q s o}, (S.step env (.get q) s).2 = .ok (.outputs [o]) → S.value env q s = .ok o := by
    intro env q s o h; simp [Store.value, Store.ask, h]
  rw [hsame] at k2
  -- the edge
  have hlook : [e].filter (S.graph (S.run h0 S.init)).edge = [edge] := by
    have h1 := (hq _ hreach e1).2 [e]
    simp only [Store.ask, hv1, Except.ok.injEq, List.cons.injEq, Output.edges.injEq, and_true] at h1
    exact h1.symm
  have hid : edge = e := by
    have : edge ∈ [e].filter (S.graph (S.run h0 S.init)).edge := by rw [hlook]; exact List.mem_singleton_self _
    exact List.mem_singleton.1 (List.mem_filter.1 this).1
  subst hid
  refine ⟨rfl, ?_⟩
  have hvs : ∀ env, S.value env (.specificEdge [edge]) (S.run h0 S.init) = .ok (.edges [edge]) := by
    intro env
    have := (hq _ hreach env).2 [edge]
    rw [hlook] at this
    simp [Store.value, this]
  -- the property
  obtain ⟨n, hn, hgr, hreach2, hfv, hlen⟩ : ∃ n, Names letter name n ∧
      S.graph (S.run h2 S.init) = (S.graph (S.run h0 S.init)).putEProps [edge] n v ∧ S.Reach (S.run h2 S.init) ∧
      (serdeText F).Faithful v ∧ (strBytes ((serdeText F).print v)).length ≤ 4000000 := by
    generalize hp : (Except.ok .nothing : Except CliError Printed) = p at k2
    generalize hs' : S.run h2 S.init = s' at k2
    cases k2 with
    | ping h => cases h
    | refused => cases hp
    | long => cases hp
    | failed => cases hp
    | panicked => cases hp
    | lost => cases hp
    | done hop hst' hf =>
      have hmod := fun q n v h => hm2 q n v h
      cases hop with
      | setEdgeProperty hu hn hj =>
        cases edge_one hu sy
        have hv := JsonGrammar.text_unique hj sj
        subst hv
        obtain ⟨m1, m2⟩ := hmod _ _ _ (.setEdgeProperty hu hn hj)
        have hf' := hj.faithful hF m1
        have hal := hA e2 _ _ _ (by rw [hst'])
        have := ((hs _ hreach e2 _ _ _ (hok _ hf') (by rw [hst']; simp)).2 _ (hvs e2)).2
        rw [hst', hst _ hf'] at this
        refine ⟨_, hn, this, ⟨h2, hs'.symm, ?_, hh2⟩, hf', m2⟩
        rw [hst'] at hal; exact hal.2
  refine ⟨n, hn, ?_⟩
  have hvs2 : S.value e3 (.specificEdge [edge]) (S.run h2 S.init) = .ok (.edges [edge]) := by
    have := (hq _ hreach2 e3).2 [edge]
    rw [hgr] at this
    have hlook' : [edge].filter ((S.graph (S.run h0 S.init)).putEProps [edge] n v).edge = [edge] := hlook
    rw [hlook'] at this
    simp [Store.value, this]
  have hfin := ((hpp _ hreach2 e3 (.specificEdge [edge])).2 _ hvs2).1 n
  rw [hgr] at hfin
  simp only [List.filterMap_cons, List.filterMap_nil, Graph.putEProps, List.mem_singleton, and_self, if_true,
    Option.map_some] at hfin
  -- the reply
  have hres : (S.step e3 (.get (.pipeProperty (.specificEdge [edge]) (some n))) (S.run h2 S.init)).2 =
      .ok (.outputs [.edgeProperties [⟨edge, [⟨n, v⟩]⟩]]) := by
    have hask : ∃ l, (S.step e3 (.get (.pipeProperty (.specificEdge [edge]) (some n))) (S.run h2 S.init)).2 = .ok (.outputs l) ∧
        l.getLast? = some (.edgeProperties [⟨edge, [⟨n, v⟩]⟩]) := by
      unfold Store.value Store.ask at hfin
      split at hfin
      · rename_i l h
        split at h
        · rename_i l' h'
          cases h
          refine ⟨l, h', ?_⟩
          split at hfin
          · rename_i o ho; rw [ho]; cases hfin; rfl
          · cases hfin
        · cases h
        · cases h
      · cases hfin
    obtain ⟨l, h1, h2'⟩ := hask
    obtain ⟨l', p, e, hp, hrep⟩ := get_printed letter (serdeText F) UuidText.parseStr S hg g3
      ((means_iff g3 _ _).1 (.getEdgeProperty sz hn)) e3 _ _ h1
    cases e
    have : p = .edgeProperties (some [⟨edge, [⟨n, v⟩]⟩]) := by
      simp only [printer, extractEdgeProperties, h2', Option.some.injEq] at hp
      exact hp.symm
    subst this
    rw [h1]
    exact congrArg _ (reported_edgeProperties hrep)
  have hfit := eprops_fit (J := serdeText F) hval1 hn.valid hlen
  generalize S.run h2 S.init = s2 at hres k3
  have key : ∀ {op}, Command.Means letter F g3 (.getEdgeProperty o3 t3 i3 (some name)) op →
      op = .get (.pipeProperty (.specificEdge [edge]) (some n)) := by
    intro op h
    cases h with
    | getEdgeProperty hu hn' => rw [edge_one hu sz, names_one hn' hn]
  generalize (S.cliBytes letter F e3 g3 (.getEdgeProperty o3 t3 i3 (some name)) s2).1 = s3 at k3
  cases k3 with
  | ping h => cases h
  | refused _ h => exact absurd ⟨_, .getEdgeProperty sz hn⟩ h
  | done hop hst' _ => cases key hop; rw [hst'] at hres; cases hres; rfl
  | long hop hst' hf => cases key hop; rw [hst'] at hres; cases hres; exact absurd hfit hf
  | failed hop hst' => cases key hop; rw [hst'] at hres; cases hres
  | panicked hop hst' => cases key hop; rw [hst'] at hres; cases hres
  | lost hop hst' => cases key hop; rw [hst'] at hres; cases hres

theorem Cfg.stored_eq (X : Cfg) (hX : X.codec = serdeJson utf8Ok F) (hF : F.Proper) (v : Json) (h : (serdeText F).Faithful v) :
    X.stored v = v := by
  unfold Cfg.stored
  rw [X.stored_faithful hX hF h]
  rfl

/-- C96 for a server with the memory datastore: sessions of any length do what their commands say, byte for byte. -/
theorem C96_memory (K : HashEq) (b : Build) (hF : F.Proper) : (memStore K b).SessionsExact letter F :=
  (memStore K b).sessions_exact hF (memStore_typed K b) (C54_memory letter _ _ K b) (fun _ _ => trivial) (C97_memory_counts K b hF)

/-- C96 for a server with RocksDB, whose values are stored as JSON text. -/
theorem C96_rocks (X : Cfg) (hX : X.codec = serdeJson utf8Ok F) (hF : F.Proper) : (rocksStore X).SessionsExact letter F :=
  (rocksStore X).sessions_exact hF (rocksStore_typed X)
    (C54_rocks letter _ _ X (fun v h => by rw [X.stored_eq hX hF v h]; exact h)) (fun v h => ⟨v, X.stored_faithful hX hF h⟩)
    (C97_rocks_counts X hX hF)

/-- C96: what is set is what is printed, with the memory datastore. -/
theorem C96_memory_back (K : HashEq) (b : Build) (hF : F.Proper) : (memStore K b).ReadsBack letter F :=
  (memStore K b).reads_back hF (memStore_typed K b) (C54_memory letter _ _ K b) (fun _ _ => trivial) (C16_memory K b).1
    (C19_memory K b) (C07_memory K b).1 (fun _ _ => rfl) (C25_memory K b) (memStore_closed K b) (memStore_reading K b)
    (memStore_answers K b) (C97_memory_counts K b hF)

/-- C96: what is set is what is printed, with RocksDB. -/
theorem C96_rocks_back (X : Cfg) (hX : X.codec = serdeJson utf8Ok F) (hF : F.Proper) : (rocksStore X).ReadsBack letter F :=
  (rocksStore X).reads_back hF (rocksStore_typed X)
    (C54_rocks letter _ _ X (fun v h => by rw [X.stored_eq hX hF v h]; exact h)) (fun v h => ⟨v, X.stored_faithful hX hF h⟩)
    (C16_rocks X).1 (C19_rocks X) (C07_rocks_partial X).1 (X.stored_eq hX hF) (C25_rocks X)
    (rocksStore_closed X (fun v h => by rw [X.stored_eq hX hF v h]; exact h)) (rocksStore_reading X)
    (fun _ _ _ _ _ => ⟨rfl, rfl⟩) (C97_rocks_counts X hX hF)

/-- C96: the same for edges, with the memory datastore. -/
theorem C96_memory_back_edge (K : HashEq) (b : Build) (hF : F.Proper) : (memStore K b).ReadsBackEdge letter F :=
  (memStore K b).reads_back_edge hF (memStore_typed K b) (C54_memory letter _ _ K b) (fun _ _ => trivial) (C16_memory K b).2
    (C19_memory K b) (C07_memory K b).1 (fun _ _ => rfl) (C25_memory K b) (memStore_closed K b) (memStore_reading K b)
    (memStore_answers K b) (C97_memory_counts K b hF)

/-- C96: the same for edges, with RocksDB. -/
theorem C96_rocks_back_edge (X : Cfg) (hX : X.codec = serdeJson utf8Ok F) (hF : F.Proper) : (rocksStore X).ReadsBackEdge letter F :=
  (rocksStore X).reads_back_edge hF (rocksStore_typed X)
    (C54_rocks letter _ _ X (fun v h => by rw [X.stored_eq hX hF v h]; exact h)) (fun v h => ⟨v, X.stored_faithful hX hF h⟩)
    (C16_rocks X).2 (C19_rocks X) (C07_rocks_partial X).1 (X.stored_eq hX hF) (C25_rocks X)
    (rocksStore_closed X (fun v h => by rw [X.stored_eq hX hF v h]; exact h)) (rocksStore_reading X)
    (fun _ _ _ _ _ => ⟨rfl, rfl⟩) (C97_rocks_counts X hX hF)

/-! ### A session -/

namespace W
/-- A vertex is made under one text of its id, found under another, given a value with white space in it, and asked for it
under a third; then there are a command with an argument that is no JSON, and an edge to a vertex that does not exist. -/
def session {E : Type} (e : E) : List (E × Uuid × Command) := [
  (e, u 3, .setVertex "foo" (some "0000000000000000000000000000001B")),
  (e, u 3, .ping),
  (e, u 3, .getVertex "{00000000-0000-0000-0000-00000000001b}"),
  (e, u 3, .setVertexProperty "00000000-0000-0000-0000-00000000001B" "foo" " [ \"a\", true ]"),
  (e, u 3, .getVertexProperty "urn:uuid:00000000-0000-0000-0000-00000000001b" (some "foo"))]
def sessionValue : Json := .arr (.cons (.str [97]) (.cons (.bool true) .nil))
theorem session_text : SpellsJson W.floats " [ \"a\", true ]" sessionValue := (C92_message _ _).1 (by decide +kernel)
theorem session_modest {E : Type} (e : E) : ∀ p ∈ session e, p.2.2.Modest asciiAlnum W.floats p.2.1 := by
  intro p hp q n v h
  simp only [session, List.mem_cons, List.not_mem_nil, or_false] at hp
  rcases hp with rfl | rfl | rfl | rfl | rfl <;> cases h
  rename_i _ _ hj
  cases JsonGrammar.text_unique hj session_text
  exact ⟨Json.floatsAre W.floats_back _, by decide +kernel⟩
theorem session_noCount {E : Type} (e : E) : ∀ p ∈ session e, p.2.2 ≠ .countVertex ∧ p.2.2 ≠ .countEdge := by
  intro p hp
  simp only [session, List.mem_cons, List.not_mem_nil, or_false] at hp
  rcases hp with rfl | rfl | rfl | rfl | rfl <;> exact ⟨nofun, nofun⟩
end W

/-- The hypotheses are met, and what is printed. -/
example : (MS .debug).Session asciiAlnum W.floats (W.session HashOrder.sorted) MemDb.new
      ((MS .debug).cliRun asciiAlnum W.floats (W.session HashOrder.sorted) MemDb.new).1 ((MS .debug).cliRun asciiAlnum W.floats (W.session HashOrder.sorted) MemDb.new).2 :=
  C96_memory _ _ W.floats_proper _ (W.session_modest _)
    (.inl (by decide))

example : ((MS .debug).cliRun asciiAlnum W.floats (W.session HashOrder.sorted) MemDb.new).2 =
    [.ok (.vertex ⟨W.u 27, fooIdent⟩), .ok .ok, .ok (.vertices (some [⟨W.u 27, fooIdent⟩])), .ok .nothing,
      .ok (.vertexProperties (some [⟨⟨W.u 27, fooIdent⟩, [⟨fooIdent, W.sessionValue⟩]⟩]))] := by
  kernel_rfl

example : ((MS .debug).cliRun asciiAlnum W.floats
      [(.sorted, W.u 3, .setVertex "foo" none), (.sorted, W.u 3, .setVertexProperty (UuidText.text (W.u 3)) "foo" "[1,]"),
       (.sorted, W.u 3, .setEdge (UuidText.text (W.u 3)) "foo" (UuidText.text (W.u 4))), (.sorted, W.u 3, .countVertex)] MemDb.new).2 =
    [.ok (.vertex ⟨W.u 3, fooIdent⟩), .error .json, .error .vertexInvalid, .ok (.count 1)] := by
  kernel_rfl

example : ((rocksStore W.serdeCfg).cliRun asciiAlnum W.floats (W.session IdentOrder.sorted) (rocksStore W.serdeCfg).init).2 =
    [.ok (.vertex ⟨W.u 27, fooIdent⟩), .ok .ok, .ok (.vertices (some [⟨W.u 27, fooIdent⟩])), .ok .nothing,
      .ok (.vertexProperties (some [⟨⟨W.u 27, fooIdent⟩, [⟨fooIdent, W.sessionValue⟩]⟩]))] := by
  kernel_rfl

/-- Reading back: applied to this session. -/
example (last : Except CliError Printed)
    (h : ((MS .debug).cliRun asciiAlnum W.floats (W.session HashOrder.sorted) MemDb.new).2 =
      [.ok (.vertex ⟨W.u 27, fooIdent⟩), .ok .ok] ++ [.ok (.vertices (some [⟨W.u 27, fooIdent⟩])), .ok .nothing, last]) :
    ∃ n, Names asciiAlnum "foo" n ∧ last = .ok (.vertexProperties (some [⟨⟨W.u 27, fooIdent⟩, [⟨n, W.sessionValue⟩]⟩])) :=
  C96_memory_back HashEq.byHash .debug W.floats_proper ((W.session HashOrder.sorted).take 2) _ _ _ _ _ (W.u 27) W.sessionValue .sorted .sorted .sorted
    (W.u 3) (W.u 3) (W.u 3) (W.session_modest _)
    (.inl (by decide))
    ((C95_accepts _ _).1 (by decide +kernel)) ((C95_accepts _ _).1 (by decide +kernel)) ((C95_accepts _ _).1 (by decide +kernel))
    W.session_text _ _ _ rfl h

namespace W
/-- Two vertices and an edge, the edge being asked for under different texts of its ends. -/
def edgeSession {E : Type} (e : E) : List (E × Uuid × Command) := [
  (e, u 3, .setVertex "foo" none), (e, u 4, .setVertex "foo" none),
  (e, u 9, .setEdge (UuidText.text (u 3)) "foo" (UuidText.text (u 4))),
  (e, u 9, .getEdge "00000000000000000000000000000003" "foo" (UuidText.text (u 4))),
  (e, u 9, .setEdgeProperty (UuidText.text (u 3)) "foo" "{00000000-0000-0000-0000-000000000004}" "foo" " [ \"a\", true ]"),
  (e, u 9, .getEdgeProperty (UuidText.text (u 3)) "foo" "urn:uuid:00000000-0000-0000-0000-000000000004" (some "foo"))]
theorem edgeSession_modest {E : Type} (e : E) : ∀ p ∈ edgeSession e, p.2.2.Modest asciiAlnum W.floats p.2.1 := by
  intro p hp q n v h
  simp only [edgeSession, List.mem_cons, List.not_mem_nil, or_false] at hp
  rcases hp with rfl | rfl | rfl | rfl | rfl | rfl <;> cases h
  rename_i _ _ hj
  cases JsonGrammar.text_unique hj session_text
  exact ⟨Json.floatsAre W.floats_back _, by decide +kernel⟩
theorem edgeSession_noCount {E : Type} (e : E) : ∀ p ∈ edgeSession e, p.2.2 ≠ .countVertex ∧ p.2.2 ≠ .countEdge := by
  intro p hp
  simp only [edgeSession, List.mem_cons, List.not_mem_nil, or_false] at hp
  rcases hp with rfl | rfl | rfl | rfl | rfl | rfl <;> exact ⟨nofun, nofun⟩
end W

/-- What is printed. -/
example : ((MS .debug).cliRun asciiAlnum W.floats (W.edgeSession HashOrder.sorted) MemDb.new).2 =
    [.ok (.vertex ⟨W.u 3, fooIdent⟩), .ok (.vertex ⟨W.u 4, fooIdent⟩), .ok (.edge ⟨W.u 3, fooIdent, W.u 4⟩),
      .ok (.edges (some [⟨W.u 3, fooIdent, W.u 4⟩])), .ok .nothing,
      .ok (.edgeProperties (some [⟨⟨W.u 3, fooIdent, W.u 4⟩, [⟨fooIdent, W.sessionValue⟩]⟩]))] := by
  kernel_rfl

/-- Reading back an edge: applied to this session. -/
example (edge : Edge) (last : Except CliError Printed) (l) (hl : l.length = 3)
    (h : ((MS .debug).cliRun asciiAlnum W.floats (W.edgeSession HashOrder.sorted) MemDb.new).2 =
      l ++ [.ok (.edges (some [edge])), .ok .nothing, last]) :
    edge = ⟨W.u 3, fooIdent, W.u 4⟩ ∧ ∃ n, Names asciiAlnum "foo" n ∧
      last = .ok (.edgeProperties (some [⟨⟨W.u 3, fooIdent, W.u 4⟩, [⟨n, W.sessionValue⟩]⟩])) :=
  C96_memory_back_edge HashEq.byHash .debug W.floats_proper ((W.edgeSession HashOrder.sorted).take 3) _ _ _ _ _ _ _ _ _ _ _ _
    W.sessionValue .sorted .sorted .sorted (W.u 9) (W.u 9) (W.u 9) (W.edgeSession_modest _)
    (.inl (by decide))
    ⟨(C95_accepts _ _).1 (by decide +kernel), ⟨rfl, by decide⟩, (C95_accepts _ _).1 (by decide +kernel)⟩
    ⟨(C95_accepts _ _).1 (by decide +kernel), ⟨rfl, by decide⟩, (C95_accepts _ _).1 (by decide +kernel)⟩
    ⟨(C95_accepts _ _).1 (by decide +kernel), ⟨rfl, by decide⟩, (C95_accepts _ _).1 (by decide +kernel)⟩
    W.session_text l edge last hl h

end IndraDB
