import Verif.Proofs.UuidText
import Verif.Props.Cli
/-
C95: the texts of ids.
-/
namespace IndraDB
open UuidText

/-- C95: the client accepts exactly the texts of ids, and reads the id they are texts of. -/
theorem C95_accepts (s : String) (u : Uuid) : parseStr s = some u ↔ Spells s u := parse_iff s u

/-- C95: a text is a text of one id. -/
theorem C95_one {s : String} {u u' : Uuid} (h : Spells s u) (h' : Spells s u') : u = u' :=
  Option.some.inj (((parse_iff s u).2 h).symm.trans ((parse_iff s u').2 h'))

/-- C95: the text printed for an id is its usual text, and is read as this id. -/
theorem C95_text (u : Uuid) : Canonical (text u) u ∧ parseStr (text u) = some u :=
  ⟨text_canonical u, (parse_iff _ _).2 (text_canonical u).1⟩

/-- C95: an id has one usual text; so different ids are printed differently. -/
theorem C95_unique (s : String) (u u' : Uuid) : (Canonical s u ↔ s = text u) ∧ (text u = text u' → u = u') := by
  have key : ∀ {s : String} {u : Uuid}, Canonical s u → ∃ a b c d e : List Char, a.length = 8 ∧ b.length = 4 ∧ c.length = 4 ∧
      d.length = 4 ∧ e.length = 12 ∧ a ++ (b ++ (c ++ (d ++ e))) = hex u.bytes ∧
      s.toList = a ++ '-' :: b ++ '-' :: c ++ '-' :: d ++ '-' :: e := by
    rintro s u ⟨⟨a, b, c, d, e, ha, hb, hc, hd, he, hh, hs⟩, hl, hm⟩
    rw [← String.length_toList] at hl
    rcases hs with hs | hs | hs | hs
    · rw [hs] at hl; simp at hl; omega
    · refine ⟨a, b, c, d, e, ha, hb, hc, hd, he, ?_, hs⟩
      have := HexBytes_lower hh ?_
      · simpa using this
      · intro x hx
        apply hm; rw [hs]
        simp only [List.mem_append, List.mem_cons] at hx ⊢
        rcases hx with (((h | h) | h) | h) | h <;> simp [h]
    · rw [hs] at hl; simp at hl; omega
    · rw [hs] at hl; simp at hl; omega
  refine ⟨⟨fun h => ?_, fun h => h ▸ text_canonical u⟩, fun h => C95_one (text_canonical u).1 (h ▸ (text_canonical u').1)⟩
  obtain ⟨a, b, c, d, e, ha, hb, hc, hd, he, hh, hs⟩ := key h
  obtain ⟨a', b', c', d', e', ha', hb', hc', hd', he', hh', hs'⟩ := key (text_canonical u)
  obtain ⟨rfl, h1⟩ := List.append_inj (hh.trans hh'.symm) (by omega)
  obtain ⟨rfl, h2⟩ := List.append_inj h1 (by omega)
  obtain ⟨rfl, h3⟩ := List.append_inj h2 (by omega)
  obtain ⟨rfl, rfl⟩ := List.append_inj h3 (by omega)
  exact String.toList_inj.1 (hs.trans hs'.symm)

variable (letter : Char → Bool) (J : JsonText)

theorem putVertex_same (g : Graph) (i : Uuid) (t : Identifier) : (g.putVertex i t).vertex i = some t := by
  simp [Graph.putVertex]

theorem putEdge_same (g : Graph) (e : Edge) : (g.putEdge e).edge e = true := by
  simp [Graph.putEdge]

/-- The client reading ids as the crate does. -/
theorem Store.texts_denote (S : Store) (hx : S.CommandsExact letter J parseStr) (hcv : S.CreateVertexExact)
    (hce : S.CreateEdgeExact) (hq : S.VertexQueriesExact) {lt : Edge → Edge → Bool} (heq : S.EdgeQueriesExact lt)
    (ht : S.Typed)
    (hA : ∀ env op s r, (S.step env op s).2 = .ok r → S.alive s = true ∧ S.alive (S.step env op s).1 = true) :
    S.TextsDenote letter J parseStr := by
  intro hist hok ha env env' g g' s
  have cr : ∀ (op : Op) c p, (op matches .createVertex _ | .createEdge _) → c.Denotes letter J parseStr g op →
      op.All (·.Valid letter) J.Faithful → op.ValuesOk S.okValue → op.ValueFits S J →
      (S.cli letter J parseStr env g c s).2 = .ok p → ∃ b, (S.step env op s).2 = .ok (.bool b) ∧
        reported op (.bool b) = .ok p ∧ (S.cli letter J parseStr env g c s).1 = S.run (hist ++ [(env, op)]) S.init ∧
        S.OkHist (hist ++ [(env, op)]) ∧ (∀ p ∈ hist ++ [(env, op)], p.2.All (·.Valid letter) J.Faithful) ∧ S.Reach s ∧
        S.Reach (S.run (hist ++ [(env, op)]) S.init) := by
    intro op c p hop hd hall hval hfit hp
    obtain ⟨k1, k2, k3, k4, k5⟩ := (hx hist hok ha env g c).1 op hd hfit
    have hrun : S.run (hist ++ [(env, op)]) S.init = (S.step env op s).1 := by rw [Store.run_append]; rfl
    have hok' : S.OkHist (hist ++ [(env, op)]) := by
      intro p hp
      rcases List.mem_append.1 hp with hp | hp
      · exact hok p hp
      · rw [List.mem_singleton.1 hp]; exact hval
    by_cases hr : ∃ r, (S.step env op s).2 = .ok r
    · obtain ⟨r, hr⟩ := hr
      have hl := hA env op s r hr
      have hreach : S.Reach s := ⟨hist, rfl, hl.1, hok⟩
      obtain ⟨b, rfl⟩ : ∃ b, r = .bool b := by
        have := ht env op s r hr
        revert hop this
        cases op <;> cases r <;> simp [Reply.IsFor]
      refine ⟨b, hr, ?_, k1.trans hrun.symm, hok', ?_, hreach, ⟨_, rfl, by rw [hrun]; exact hl.2, hok'⟩⟩
      · rw [← k2 _ hr trivial]; exact hp
      · intro p hp
        rcases List.mem_append.1 hp with hp | hp
        · exact ha p hp
        · rw [List.mem_singleton.1 hp]; exact hall
    · cases h : (S.step env op s).2 with
      | ok r => exact absurd ⟨r, h⟩ hr
      | error f =>
        cases f with
        | panic => rw [k5 h (by rintro q rfl; simp at hop)] at hp; cases hp
        | err e => rw [k4 e h] at hp; cases hp
  refine ⟨?_, ?_, ?_⟩
  · intro t id v hv
    by_cases hd : ∃ op, (Command.setVertex t id).Denotes letter J parseStr g op
    · obtain ⟨op, hd⟩ := hd
      have hop : ∃ u ti, op = .createVertex ⟨u, ti⟩ ∧ Names letter t ti ∧ ∀ id', id = some id' → parseStr id' = some u := by
        cases hd with
        | setVertex h1 h2 => exact ⟨_, _, rfl, h1, by rintro _ ⟨⟩; exact h2⟩
        | setVertexNew h1 => exact ⟨_, _, rfl, h1, by rintro _ ⟨⟩⟩
      obtain ⟨u, ti, rfl, hn, hid⟩ := hop
      obtain ⟨b, h1, h2, h3, h4, h5, h6, h7⟩ := cr _ _ _ rfl hd hn.valid trivial (by rintro _ _ _ ⟨⟩) hv
      cases b with
      | false => cases h2
      | true =>
        cases h2
        refine ⟨fun id' h => (parse_iff _ _).1 (hid id' h), fun x hxu => ?_⟩
        rw [h3]
        have hg : (S.graph (S.run (hist ++ [(env, Op.createVertex ⟨u, ti⟩)]) S.init)).vertex u = some ti := by
          have hc := hcv s h6 env ⟨u, ti⟩
          have hnone := hc.1.1 h1
          rw [show S.run (hist ++ [(env, Op.createVertex ⟨u, ti⟩)]) S.init = (S.step env (.createVertex ⟨u, ti⟩) s).1 by
            rw [Store.run_append]; rfl, hc.2.2.1, if_pos hnone]
          exact putVertex_same _ _ _
        have hask := (hq _ h7 env').2.2 [u]
        have hlook : (S.graph (S.run (hist ++ [(env, Op.createVertex ⟨u, ti⟩)]) S.init)).lookup [u] = [⟨u, ti⟩] := by
          simp [Graph.lookup, hg]
        rw [hlook] at hask
        have hstep : (S.step env' (.get (.specificVertex [u])) (S.run (hist ++ [(env, Op.createVertex ⟨u, ti⟩)]) S.init)).2 =
            .ok (.outputs [.vertices [⟨u, ti⟩]]) := by
          unfold Store.ask at hask
          split at hask
          · rename_i h; cases hask; exact h
          · cases hask
          · cases hask
        refine ((hx _ h4 h5 env' g' (.getVertex x)).1 _ (.getVertex ((parse_iff _ _).2 hxu)) (by rintro _ _ _ ⟨⟩)).2.1 _ hstep ?_
        intro o ho
        cases List.mem_singleton.1 ho
        have h1 := vertex_size' letter (v := ⟨u, ti⟩) hn.valid
        have h3 := lenField_le _ 400 h1 (by decide)
        have h4 := lenField_le (lenField (Vertex.toProto ⟨u, ti⟩).size + 0) 450 (by omega) (by decide)
        simp only [Output.toProto, POutput.size, List.map_cons, List.map_nil, repField]
        omega
    · obtain ⟨e, he⟩ := (hx hist hok ha env g _).2.1 hd (by rintro ⟨⟩)
      rw [show S.cli letter J parseStr env g (.setVertex t id) s = (s, .error e) from he] at hv
      cases hv
  · intro o t i e hv
    by_cases hd : ∃ op, (Command.setEdge o t i).Denotes letter J parseStr g op
    · obtain ⟨op, hd⟩ := hd
      have hop : ∃ e, op = .createEdge e ∧ NamesEdge letter parseStr o t i e := by
        cases hd with
        | setEdge h1 => exact ⟨_, rfl, h1⟩
      obtain ⟨e, rfl, hn⟩ := hop
      obtain ⟨b, h1, h2, h3, h4, h5, h6, h7⟩ := cr _ _ _ rfl hd hn.2.1.valid trivial (by rintro _ _ _ ⟨⟩) hv
      cases b with
      | false => cases h2
      | true =>
        cases h2
        refine ⟨(parse_iff _ _).1 hn.1, (parse_iff _ _).1 hn.2.2, fun x y hx' hy' => ?_⟩
        rw [h3]
        have hg : (S.graph (S.run (hist ++ [(env, Op.createEdge e)]) S.init)).edge e = true := by
          have hc := hce s h6 env e
          rw [show S.run (hist ++ [(env, Op.createEdge e)]) S.init = (S.step env (.createEdge e) s).1 by
            rw [Store.run_append]; rfl, hc.2.2, if_pos (hc.1.1 h1)]
          exact putEdge_same _ _
        have hask := (heq _ h7 env').2 [e]
        rw [show [e].filter (S.graph (S.run (hist ++ [(env, Op.createEdge e)]) S.init)).edge = [e] by simp [hg]] at hask
        have hstep : (S.step env' (.get (.specificEdge [e])) (S.run (hist ++ [(env, Op.createEdge e)]) S.init)).2 =
            .ok (.outputs [.edges [e]]) := by
          unfold Store.ask at hask
          split at hask
          · rename_i h; cases hask; exact h
          · cases hask
          · cases hask
        refine ((hx _ h4 h5 env' g' (.getEdge x t y)).1 _
          (.getEdge ⟨(parse_iff _ _).2 hx', hn.2.1, (parse_iff _ _).2 hy'⟩) (by rintro _ _ _ ⟨⟩)).2.1 _ hstep ?_
        intro o ho
        cases List.mem_singleton.1 ho
        have h1 := edge_size letter (e := e) hn.2.1.valid
        have h3 := lenField_le _ 400 h1 (by decide)
        have h4 := lenField_le (lenField e.toProto.size + 0) 450 (by omega) (by decide)
        simp only [Output.toProto, POutput.size, List.map_cons, List.map_nil, repField]
        omega
    · obtain ⟨f, he⟩ := (hx hist hok ha env g _).2.1 hd (by rintro ⟨⟩)
      rw [show S.cli letter J parseStr env g (.setEdge o t i) s = (s, .error f) from he] at hv
      cases hv
  · intro x hx'
    have : parseStr x = none := by
      cases h : parseStr x with
      | none => rfl
      | some u => exact absurd ⟨u, (parse_iff _ _).1 h⟩ hx'
    have h2 : buildVertexQuery parseStr x = .error .uuid := by
      simp only [buildVertexQuery, argUuid, this]; rfl
    refine ⟨?_, ?_, fun n v => ?_⟩ <;> simp only [Store.cli, plan, h2] <;> rfl

/-- C95 for a server with the memory datastore. -/
theorem C95_memory (K : HashEq) (b : Build) : (memStore K b).TextsDenote letter J parseStr := by
  refine (memStore K b).texts_denote letter J (C54_memory letter J parseStr K b) (C01_memory K b).1 (C02_memory K b)
    (C16_memory K b).1 (C16_memory K b).2 (memStore_typed K b) ?_
  intro O op d r h
  have h' : (MemDb.step K b O op d).2 = .ok r := h
  show (!d.poisoned) = true ∧ (!(MemDb.step K b O op d).1.poisoned) = true
  cases hp : d.poisoned with
  | true => simp [MemDb.step, hp] at h'
  | false =>
    obtain ⟨_, h2, h3⟩ := memStep_eq (K := K) (b := b) hp O op
    refine ⟨rfl, ?_⟩
    cases hq : (MemDb.step K b O op d).1.poisoned with
    | false => rfl
    | true => rw [h2, h3.1 hq] at h'; cases h'

/-- C95 for a server with RocksDB. -/
theorem C95_rocks (X : Cfg) (hX : ∀ x, J.Faithful x → J.Faithful (X.stored x)) :
    (rocksStore X).TextsDenote letter J parseStr :=
  (rocksStore X).texts_denote letter J (C54_rocks letter J parseStr X hX) (C01_rocks X).1 (C02_rocks X) (C16_rocks X).1
    (C16_rocks X).2 (rocksStore_typed X) (fun _ _ _ _ _ => ⟨rfl, rfl⟩)

/-- The texts of an id, and strings that are not texts of any. -/
example : text (W.u 27) = "00000000-0000-0000-0000-00000000001b" ∧
    parseStr "0000000000000000000000000000001b" = some (W.u 27) ∧
    parseStr "0000000000000000000000000000001B" = some (W.u 27) ∧
    parseStr "{00000000-0000-0000-0000-00000000001b}" = some (W.u 27) ∧
    parseStr "urn:uuid:00000000-0000-0000-0000-00000000001B" = some (W.u 27) ∧
    parseStr "{0000000000000000000000000000001b}" = none ∧
    parseStr "00000000-0000-0000-0000-00000000001g" = none ∧
    parseStr "00000000-00000-000-0000-00000000001b" = none ∧
    parseStr " 0000000-0000-0000-0000-00000000001b" = none := by
  decide +kernel

/-- A run: a vertex is made under a text of an id and found under others. -/
example : let c := fun (s : MemDb) x => (MS .debug).cli asciiAlnum twoText parseStr HashOrder.sorted (W.u 3) x s
    let s1 := (c MemDb.new (.setVertex "foo" (some "{00000000-0000-0000-0000-00000000001B}"))).1
    (c MemDb.new (.setVertex "foo" (some "{00000000-0000-0000-0000-00000000001B}"))).2 = .ok (.vertex ⟨W.u 27, fooIdent⟩) ∧
    (c s1 (.getVertex "0000000000000000000000000000001b")).2 = .ok (.vertices (some [⟨W.u 27, fooIdent⟩])) ∧
    (c s1 (.getVertex (text (W.u 27)))).2 = .ok (.vertices (some [⟨W.u 27, fooIdent⟩])) ∧
    (c s1 (.setEdge (text (W.u 27)) "foo" (text (W.u 27)))).2 = .ok (.edge ⟨W.u 27, fooIdent, W.u 27⟩) ∧
    (c s1 (.getVertex "27")).2 = .error .uuid := by
  refine ⟨?_, ?_, ?_, ?_, ?_⟩ <;> kernel_rfl

/-- A history that the theorems apply to: everything in it is valid. -/
example : (MS .debug).OkHist [(.sorted, .createVertex ⟨W.u 1, fooIdent⟩)] ∧
    (∀ p ∈ [(HashOrder.sorted, Op.createVertex ⟨W.u 1, fooIdent⟩)], p.2.All (·.Valid asciiAlnum) twoText.Faithful) ∧
    Spells "0000000000000000000000000000001B" (W.u 27) ∧ ¬ ∃ u, Spells "27" u := by
  refine ⟨memStore_ok _, ?_, (parse_iff _ _).1 (by decide +kernel), ?_⟩
  · intro p hp
    rw [List.mem_singleton.1 hp]
    exact fooIdent_valid
  · rintro ⟨u, h⟩
    have := (parse_iff _ _).2 h
    rw [show parseStr "27" = none by decide +kernel] at this
    cases this

end IndraDB
