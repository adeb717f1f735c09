import Verif.Spec.Session
import Verif.Proofs.WireCall
import Verif.Props.UuidText
import Verif.Props.JsonGrammar
import Verif.Props.JsonText
/-
Sessions of the command line client.
-/
namespace IndraDB
open JsonGrammar

/-! ### What is read is a value that can be written -/

theorem above_trans {k k' : Bytes} (h : Order.lt k k' = true) : ∀ r : JObj, r.Above k' → r.Above k
  | .nil, _ => trivial
  | .cons _ _ r, h' => ⟨Order.trans _ _ _ h h'.1, above_trans h r h'.2⟩

theorem JObj.insert_typed {utf8 : Bytes → Bool} {k : Bytes} {v : Json} (hk : utf8 k = true) (hv : v.Typed utf8) :
    ∀ {o : JObj}, o.Typed utf8 → (o.insert k v).Typed utf8
  | .nil, _ => ⟨hk, trivial, hv, trivial⟩
  | .cons k' v' r, h => by
    unfold JObj.insert
    obtain ⟨h1, h2, h3, h4⟩ := h
    split
    · rename_i hlt
      refine ⟨hk, ⟨hlt, ?_⟩, hv, h1, h2, h3, h4⟩
      exact above_trans hlt r h2
    · split
      · rename_i _ hlt
        exact ⟨h1, above_insert hlt h2, h3, JObj.insert_typed hk hv h4⟩
      · rename_i a b
        have : k = k' := Order.tri k k' (by simpa using a) (by simpa using b)
        subst this
        exact ⟨hk, h2, hv, h4⟩

theorem JObj.insert_levels {k : Bytes} {v : Json} {n : Nat} (hv : v.levels ≤ n) : ∀ {o : JObj}, o.levels ≤ n → (o.insert k v).levels ≤ n
  | .nil, h => by simp only [JObj.insert, JObj.levels]; omega
  | .cons k' v' r, h => by
    unfold JObj.insert
    simp only [JObj.levels] at h
    split
    · simp only [JObj.levels]; omega
    · split
      · have := JObj.insert_levels (k := k) (o := r) hv (by omega)
        simp only [JObj.levels]; omega
      · simp only [JObj.levels]; omega

theorem JObj.ofEntries_good {utf8 : Bytes → Bool} {n : Nat} : ∀ (l : List (Bytes × Json)) {acc : JObj}, acc.Typed utf8 → acc.levels ≤ n →
    (∀ e ∈ l, utf8 e.1 = true ∧ e.2.Typed utf8 ∧ e.2.levels ≤ n) → (JObj.ofEntries acc l).Typed utf8 ∧ (JObj.ofEntries acc l).levels ≤ n
  | [], _, h1, h2, _ => ⟨h1, h2⟩
  | e :: r, _, h1, h2, h => by
    obtain ⟨a, b, c⟩ := h e List.mem_cons_self
    exact JObj.ofEntries_good r (JObj.insert_typed a b h1) (JObj.insert_levels c h2) (fun x hx => h x (List.mem_cons_of_mem _ hx))

theorem elements_good {utf8 : Bytes → Bool} {n : Nat} : ∀ (a : JArr), (∀ v ∈ elements a, v.Typed utf8 ∧ v.levels ≤ n) →
    a.Typed utf8 ∧ a.levels ≤ n
  | .nil, _ => ⟨trivial, Nat.zero_le _⟩
  | .cons v r, h => by
    obtain ⟨a, b⟩ := h v List.mem_cons_self
    obtain ⟨c, d⟩ := elements_good r (fun x hx => h x (List.mem_cons_of_mem _ hx))
    exact ⟨⟨a, c⟩, by simp only [JArr.levels]; omega⟩

theorem Rows.mem {α : Type} {P : Bytes → α → Prop} {b : Bytes} {l : List α} (h : Rows P b l) : ∀ a ∈ l, ∃ t, P t a := by
  rcases h with ⟨_, rfl⟩ | h
  · intro a ha; cases ha
  · induction h with
    | last _ h _ => intro a ha; rw [List.mem_singleton.1 ha]; exact ⟨_, h⟩
    | more _ h _ _ ih =>
      intro a ha
      rcases List.mem_cons.1 ha with rfl | ha
      · exact ⟨_, h⟩
      · exact ih a ha

theorem Scalar.good {utf8 : Bytes → Bool} {F : Floats} {t : Bytes} {v : Json} (h : Scalar utf8 F t v) : v.Typed utf8 ∧ v.levels = 0 := by
  cases h with
  | str _ h => exact ⟨h, rfl⟩
  | _ => exact ⟨trivial, rfl⟩

theorem Value.good {utf8 : Bytes → Bool} {F : Floats} : ∀ (n : Nat) {t : Bytes} {v : Json}, Value utf8 F n t v → v.Typed utf8 ∧ v.levels ≤ n
  | 0, _, _, h => by obtain ⟨a, b⟩ := Scalar.good h; exact ⟨a, by omega⟩
  | n + 1, _, _, h => by
    rcases h with h | ⟨b, l, a, _, hr, rfl, he⟩ | ⟨b, l, o, _, hr, rfl, ho⟩
    · obtain ⟨a, b⟩ := Scalar.good h; exact ⟨a, by omega⟩
    · obtain ⟨c, d⟩ := elements_good (utf8 := utf8) (n := n) a (fun v hv => by
        obtain ⟨t, ht⟩ := Rows.mem hr v (he ▸ hv)
        exact Value.good n ht)
      exact ⟨c, by simp only [Json.levels]; omega⟩
    · rw [object_iff.1 ho]
      obtain ⟨c, d⟩ := JObj.ofEntries_good (utf8 := utf8) (n := n) l (acc := .nil) trivial (Nat.zero_le _) (fun e he => by
        obtain ⟨t, s, w, w', t', _, _, h1, _, _, h2⟩ := Rows.mem hr e he
        exact ⟨h1, Value.good n h2⟩)
      exact ⟨c, by simp only [Json.levels]; omega⟩

theorem SpellsJson.good {F : Floats} {s : String} {v : Json} (h : SpellsJson F s v) : v.Typed utf8Ok ∧ v.levels ≤ 127 := by
  obtain ⟨w, t, w', _, _, _, h⟩ := (text_iff (strBytes_utf8 s) v).2 h
  exact Value.good 127 h

variable {letter : Char → Bool} {F : Floats}

theorem SpellsJson.faithful (hF : F.Proper) {s : String} {v : Json} (h : SpellsJson F s v)
    (hv : v.FloatsAre (fun f => F.back f = some f)) : (serdeText F).Faithful v :=
  (C90_message_faithful hF v h.good.1 hv).2 h.good.2

/-- A value that is transported unchanged is stored unchanged. -/
theorem Cfg.stored_faithful (X : Cfg) (hX : X.codec = serdeJson utf8Ok F) (hF : F.Proper) {v : Json} (h : (serdeText F).Faithful v) :
    X.codec.dec (X.codec.enc v) = some v := by
  have hg : v.Typed utf8Ok := (SpellsJson.good ((C92_message _ _).1 h)).1
  have h' := h
  unfold JsonText.Faithful at h'
  rw [C90_message hF v hg] at h'
  rw [hX, C90_disk hF v hg]
  exact h'

/-! ### Commands -/

theorem means_iff (g : Uuid) (c : Command) (op : Op) :
    c.Means letter F g op ↔ c.Denotes letter (serdeText F) UuidText.parseStr g op := by
  have he : ∀ {o t i e}, SpellsEdge letter o t i e ↔ NamesEdge letter UuidText.parseStr o t i e := by
    intro o t i e
    unfold SpellsEdge NamesEdge
    rw [UuidText.parse_iff, UuidText.parse_iff]
  constructor
  · intro h
    cases h with
    | setVertex h1 h2 => exact .setVertex h1 ((C95_accepts _ _).2 h2)
    | setVertexNew h1 => exact .setVertexNew h1
    | setEdge h1 => exact .setEdge (he.1 h1)
    | setVertexProperty h1 h2 h3 => exact .setVertexProperty ((C95_accepts _ _).2 h1) h2 ((C92_message _ _).2 h3)
    | setEdgeProperty h1 h2 h3 => exact .setEdgeProperty (he.1 h1) h2 ((C92_message _ _).2 h3)
    | countVertex => exact .countVertex
    | countEdge => exact .countEdge
    | getVertex h1 => exact .getVertex ((C95_accepts _ _).2 h1)
    | getEdge h1 => exact .getEdge (he.1 h1)
    | getVertexProperty h1 h2 => exact .getVertexProperty ((C95_accepts _ _).2 h1) h2
    | getVertexProperties h1 => exact .getVertexProperties ((C95_accepts _ _).2 h1)
    | getEdgeProperty h1 h2 => exact .getEdgeProperty (he.1 h1) h2
    | getEdgeProperties h1 => exact .getEdgeProperties (he.1 h1)
    | deleteVertex h1 => exact .deleteVertex ((C95_accepts _ _).2 h1)
    | deleteEdge h1 => exact .deleteEdge (he.1 h1)
    | deleteVertexProperty h1 h2 => exact .deleteVertexProperty ((C95_accepts _ _).2 h1) h2
    | deleteEdgeProperty h1 h2 => exact .deleteEdgeProperty (he.1 h1) h2
  · intro h
    cases h with
    | setVertex h1 h2 => exact .setVertex h1 ((C95_accepts _ _).1 h2)
    | setVertexNew h1 => exact .setVertexNew h1
    | setEdge h1 => exact .setEdge (he.2 h1)
    | setVertexProperty h1 h2 h3 => exact .setVertexProperty ((C95_accepts _ _).1 h1) h2 ((C92_message _ _).1 h3)
    | setEdgeProperty h1 h2 h3 => exact .setEdgeProperty (he.2 h1) h2 ((C92_message _ _).1 h3)
    | countVertex => exact .countVertex
    | countEdge => exact .countEdge
    | getVertex h1 => exact .getVertex ((C95_accepts _ _).1 h1)
    | getEdge h1 => exact .getEdge (he.2 h1)
    | getVertexProperty h1 h2 => exact .getVertexProperty ((C95_accepts _ _).1 h1) h2
    | getVertexProperties h1 => exact .getVertexProperties ((C95_accepts _ _).1 h1)
    | getEdgeProperty h1 h2 => exact .getEdgeProperty (he.2 h1) h2
    | getEdgeProperties h1 => exact .getEdgeProperties (he.2 h1)
    | deleteVertex h1 => exact .deleteVertex ((C95_accepts _ _).1 h1)
    | deleteEdge h1 => exact .deleteEdge (he.2 h1)
    | deleteVertexProperty h1 h2 => exact .deleteVertexProperty ((C95_accepts _ _).1 h1) h2
    | deleteEdgeProperty h1 h2 => exact .deleteEdgeProperty (he.2 h1) h2

/-- A command fails before the call only because of an argument. -/
theorem plan_refusal {J : JsonText} {parse : String → Option Uuid} {g : Uuid} {c : Command} {e : CliError}
    (h : plan letter J parse g c = .error e) : e.Refusal := by
  have bindE : ∀ {α β : Type} {x : Except CliError α} {f : α → Except CliError β} {e : CliError}, (x >>= f) = .error e →
      x = .error e ∨ ∃ a, x = .ok a ∧ f a = .error e := by
    intro α β x f e h
    cases x with
    | error e' => left; simpa [Bind.bind, Except.bind] using h
    | ok a => exact .inr ⟨a, rfl, h⟩
  have hu : ∀ {s e}, argUuid parse s = .error e → e.Refusal := by
    intro s e h; unfold argUuid at h; split at h <;> cases h; trivial
  have hi : ∀ {s e}, argIdent letter s = .error e → e.Refusal := by
    intro s e h; unfold argIdent at h; split at h <;> cases h; trivial
  have hj : ∀ {s e}, argJson J s = .error e → e.Refusal := by
    intro s e h; unfold argJson at h; split at h <;> cases h; trivial
  have hq : ∀ {s e}, buildVertexQuery parse s = .error e → e.Refusal := by
    intro s e h
    rcases bindE h with h | ⟨_, _, h⟩
    · exact hu h
    · cases h
  have hb : ∀ {o t i e}, buildEdge letter parse o t i = .error e → e.Refusal := by
    intro o t i e h
    rcases bindE h with h | ⟨_, _, h⟩
    · exact hi h
    rcases bindE h with h | ⟨_, _, h⟩
    · exact hu h
    rcases bindE h with h | ⟨_, _, h⟩
    · exact hu h
    · cases h
  have hn : ∀ {s e}, argName letter s = .error e → e.Refusal := by
    intro s e h
    cases s with
    | none => cases h
    | some s =>
      rcases bindE h with h | ⟨_, _, h⟩
      · exact hi h
      · cases h
  have hp : ∀ {q n e}, propertiesOf q n = .error e → e.Refusal := by
    intro q n e h; unfold propertiesOf at h; split at h <;> cases h; trivial
  have hc : ∀ {q e}, countOfQuery q = .error e → e.Refusal := by
    intro q e h; unfold countOfQuery at h; split at h <;> cases h; trivial
  cases c <;> simp only [plan] at h
  all_goals try cases h
  case setVertex t id =>
    rcases bindE h with h | ⟨_, _, h⟩
    · exact hi h
    cases id with
    | none => cases h
    | some id =>
      rcases bindE h with h | ⟨_, _, h⟩
      · exact hu h
      · cases h
  all_goals
    iterate 5
      all_goals
        rcases bindE h with h | ⟨_, _, h⟩
        · first | exact hu h | exact hi h | exact hj h | exact hq h | exact hb h | exact hn h | exact hp h | exact hc h
        try cases h

/-! ### Sessions -/

theorem Store.perform_eq (S : Store) {J : JsonText} (env : S.Env) (s : S.State) (p : Plan) :
    S.perform letter J env s p = performWith (S.clientCall letter J env) s p := by
  cases p with
  | ping => rfl
  | create op refused done =>
    simp only [Store.perform, performWith]
    generalize S.clientCall letter J env op s = x
    rcases x with ⟨s', _ | r⟩
    · rfl
    · cases r <;> first | rfl | (rename_i b; cases b <;> rfl)
  | quiet op =>
    simp only [Store.perform, performWith]
    generalize S.clientCall letter J env op s = x
    rcases x with ⟨s', _ | r⟩ <;> rfl
  | query q print =>
    simp only [Store.perform, performWith]
    generalize S.clientCall letter J env (.get q) s = x
    rcases x with ⟨s', _ | r⟩
    · rfl
    · cases r <;> rfl

theorem Store.cliBytes_eq (S : Store) (ht : S.Typed) (env : S.Env) (g : Uuid) (c : Command) (s : S.State)
    (ha : ∀ op, c.Means letter F g op → op.All (·.Valid letter) (serdeText F).Faithful)
    (hc : ∀ op x, c.Means letter F g op → (S.step env op s).2 = .ok x → x.SmallCounts) :
    S.cliBytes letter F env g c s = S.cli letter (serdeText F) UuidText.parseStr env g c s := by
  unfold Store.cliBytes Store.cli
  cases h : plan letter (serdeText F) UuidText.parseStr g c with
  | error e => rfl
  | ok p =>
    rcases denotes_of_plan letter (serdeText F) UuidText.parseStr g h with rfl | ⟨op, hd⟩
    · cases h; rfl
    · have hm := (means_iff g c op).2 hd
      have hw := S.wireCall_eq letter (serdeText F) ht env op s (ha op hm) (fun x hx => hc op x hm hx)
      rw [plan_of_denotes letter (serdeText F) UuidText.parseStr g hd] at h
      cases h
      simp only [Store.perform_eq]
      cases op <;> simp only [planFor, performWith, hw]

/-- One run of the program after a history: its outcome, and a history with the same state after it. -/
theorem Store.session_step (S : Store) (hF : F.Proper) (ht : S.Typed)
    (hx : S.CommandsExact letter (serdeText F) UuidText.parseStr) (hok : ∀ v, (serdeText F).Faithful v → S.okValue v)
    {hist : List (S.Env × Op)} (hh : S.OkHist hist) (ha : ∀ p ∈ hist, p.2.All (·.Valid letter) (serdeText F).Faithful)
    (env : S.Env) (g : Uuid) (c : Command) (hm : c.Modest letter F g)
    (hc : ∀ op x, c.Means letter F g op → (S.step env op (S.run hist S.init)).2 = .ok x → x.SmallCounts) :
    S.Outcome letter F env g c (S.run hist S.init)
      (S.cliBytes letter F env g c (S.run hist S.init)).1 (S.cliBytes letter F env g c (S.run hist S.init)).2 ∧
    ∃ hist', S.OkHist hist' ∧ (∀ p ∈ hist', p.2.All (·.Valid letter) (serdeText F).Faithful) ∧
      (S.cliBytes letter F env g c (S.run hist S.init)).1 = S.run hist' S.init := by
  have hfit : ∀ op, c.Means letter F g op → op.ValueFits S (serdeText F) := by
    rintro op hop q n v rfl
    have h1 := hm q n v hop
    have h2 : (serdeText F).Faithful v := by
      cases hop with
      | setVertexProperty _ _ h => exact h.faithful hF h1.1
      | setEdgeProperty _ _ h => exact h.faithful hF h1.1
    exact ⟨h2, hok v h2, h1.2⟩
  have hall := fun op hop => denotes_all letter (serdeText F) UuidText.parseStr S g ((means_iff g c op).1 hop) (hfit op hop)
  have heq := S.cliBytes_eq ht env g c (S.run hist S.init) (fun op hop => (hall op hop).1) hc
  obtain ⟨k1, k2, k3⟩ := hx hist hh ha env g c
  rw [← heq] at k1 k2
  by_cases hp : c = .ping
  · subst hp
    have h0 : S.cliBytes letter F env g .ping (S.run hist S.init) = (S.run hist S.init, .ok .ok) := rfl
    rw [h0]
    exact ⟨.ping rfl, hist, hh, ha, rfl⟩
  by_cases hd : ∃ op, c.Means letter F g op
  · obtain ⟨op, hop⟩ := hd
    obtain ⟨l1, l2, l3, l4, l5⟩ := k1 op ((means_iff g c op).1 hop) (hfit op hop)
    refine ⟨?_, hist ++ [(env, op)], ?_, ?_, ?_⟩
    · rw [l1]
      have hpair : ∀ {y}, (S.step env op (S.run hist S.init)).2 = y →
          S.step env op (S.run hist S.init) = ((S.step env op (S.run hist S.init)).1, y) := fun h => by rw [← h]
      cases hres : (S.step env op (S.run hist S.init)).2 with
      | ok rr =>
        by_cases hf : rr.Fits (serdeText F)
        · rw [l2 rr hres hf]; exact .done hop (hpair hres) hf
        · rw [l3 rr hres hf]; exact .long hop (hpair hres) hf
      | error f =>
        cases f with
        | err e => rw [l4 e hres]; exact .failed hop (hpair hres)
        | panic =>
          by_cases hq : ∃ q, op = .get q
          · obtain ⟨q, rfl⟩ := hq
            have hd' := (means_iff g c _).1 hop
            have hcall := (S.clientCall_eq letter (serdeText F) ht env _ _ (hall _ hop).1 (hall _ hop).2.1).2.2.2.2 q rfl hres
            have hlost := get_lost letter (serdeText F) UuidText.parseStr g hd'
            have : (S.cliBytes letter F env g c (S.run hist S.init)).2 = c.noResult := by
              rw [heq]
              unfold Store.cli
              rw [plan_of_denotes letter (serdeText F) UuidText.parseStr g hd']
              simp only [planFor, Store.perform]
              generalize S.clientCall letter (serdeText F) env (.get q) (S.run hist S.init) = y at hcall
              obtain ⟨s', y⟩ := y
              simp only at hcall
              subst hcall
              revert hlost
              cases hop <;> intro hlost <;> simp only at hlost <;> simp only [hlost, Command.noResult]
            rw [this]
            exact .lost hop (hpair hres)
          · rw [l5 hres (fun q h => hq ⟨q, h⟩)]
            exact .panicked hop (hpair hres) (fun q h => hq ⟨q, h⟩)
    · intro p hp'
      rcases List.mem_append.1 hp' with h | h
      · exact hh p h
      · rw [List.mem_singleton.1 h]; exact (hall op hop).2.2
    · intro p hp'
      rcases List.mem_append.1 hp' with h | h
      · exact ha p h
      · rw [List.mem_singleton.1 h]; exact (hall op hop).1
    · rw [l1, Store.run_append]; rfl
  · obtain ⟨e, he⟩ := k2 (fun ⟨op, h⟩ => hd ⟨op, (means_iff g c op).2 h⟩) hp
    have href : e.Refusal := by
      unfold Store.cliBytes at he
      cases hpl : plan letter (serdeText F) UuidText.parseStr g c with
      | error e' =>
        rw [hpl] at he
        cases he
        exact plan_refusal hpl
      | ok p =>
        rcases denotes_of_plan letter (serdeText F) UuidText.parseStr g hpl with h | ⟨op, h⟩
        · exact absurd h hp
        · exact absurd ⟨op, (means_iff g c op).2 h⟩ hd
    rw [he]
    exact ⟨.refused hp hd href, hist, hh, ha, rfl⟩

/-- A session after a history. -/
theorem Store.session_from (S : Store) (hF : F.Proper) (ht : S.Typed)
    (hx : S.CommandsExact letter (serdeText F) UuidText.parseStr) (hok : ∀ v, (serdeText F).Faithful v → S.okValue v)
    (rest : List (S.Env × Uuid × Command)) : ∀ cmds hist, S.OkHist hist → (∀ p ∈ hist, p.2.All (·.Valid letter) (serdeText F).Faithful) →
      (∀ x ∈ cmds, x.2.2.Modest letter F x.2.1) → S.CountsSmall letter F (cmds ++ rest) (S.run hist S.init) →
      S.Session letter F cmds (S.run hist S.init) (S.cliRun letter F cmds (S.run hist S.init)).1
        (S.cliRun letter F cmds (S.run hist S.init)).2 ∧
      ∃ hist', S.OkHist hist' ∧ (∀ p ∈ hist', p.2.All (·.Valid letter) (serdeText F).Faithful) ∧
        (S.cliRun letter F cmds (S.run hist S.init)).1 = S.run hist' S.init ∧ S.CountsSmall letter F rest (S.run hist' S.init) := by
  intro cmds
  induction cmds with
  | nil => intro hist hh ha _ hc; exact ⟨.nil, hist, hh, ha, rfl, hc⟩
  | cons x r ih =>
    obtain ⟨env, g, c⟩ := x
    intro hist hh ha hm hc
    obtain ⟨hout, hist', hh', ha', hs'⟩ := S.session_step hF ht hx hok hh ha env g c (hm _ List.mem_cons_self) hc.1
    have := ih hist' hh' ha' (fun x hx => hm x (List.mem_cons_of_mem _ hx)) (hs' ▸ hc.2 _ _ hout)
    rw [← hs'] at this
    exact ⟨.cons hout this.1, this.2⟩

theorem Store.sessions_exact (S : Store) (hF : F.Proper) (ht : S.Typed)
    (hx : S.CommandsExact letter (serdeText F) UuidText.parseStr) (hok : ∀ v, (serdeText F).Faithful v → S.okValue v)
    (hcs : ∀ cmds, (∀ x ∈ cmds, x.2.2.Modest letter F x.2.1) → cmds.length < 2 ^ 64 → S.CountsSmall letter F cmds S.init) :
    S.SessionsExact letter F := fun cmds hm hc =>
  (S.session_from hF ht hx hok [] cmds [] (fun _ h => nomatch h) (fun _ h => nomatch h) hm
    (by rw [List.append_nil]; exact hc.elim (hcs cmds hm) id)).1

end IndraDB
