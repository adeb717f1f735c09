import Verif.Model.Plugins
import Verif.Props.Proto
/-
C47: loading and calling plugins. C53: the interface version given to `register_plugins!`.
-/
namespace IndraDB

/-! ### Specification -/

/-- The file is a library of the server's version that declares `d`. -/
def Compatible {P : Type} (me : VersionInfo) (f : PluginFile P) (d : PluginDeclaration P) : Prop :=
  f = .plugin d ∧ d.versionInfo.rustc = me.rustc ∧ d.versionInfo.pluginInterface = me.pluginInterface

/-- `p` is what the last of the libraries that declares `name` declares for it. -/
inductive LastDeclared {P : Type} (fs : String → PluginFile P) (name : String) (p : P) : List String → Prop
  | here {path rest d} : fs path = .plugin d → d.entries name = some p →
      (∀ path' ∈ rest, ∀ d', fs path' = .plugin d' → d'.entries name = none) → LastDeclared fs name p (path :: rest)
  | later {path rest} : LastDeclared fs name p rest → LastDeclared fs name p (path :: rest)

/-! ### Proofs -/

theorem loadPlugins_ok {P : Type} (me : VersionInfo) (fs : String → PluginFile P) (paths : List String) (m : Entries P) :
    (∃ m', loadPlugins me fs paths m = .ok m') ↔ ∀ path ∈ paths, ∃ d, Compatible me (fs path) d := by
  induction paths generalizing m with
  | nil => simp [loadPlugins]
  | cons path rest ih =>
    rw [loadPlugins, List.forall_mem_cons]
    cases hf : fs path with
    | notALibrary => simp [Compatible]
    | noSymbol => simp [Compatible]
    | plugin d =>
      have hv : d.versionInfo = me ↔ d.versionInfo.rustc = me.rustc ∧ d.versionInfo.pluginInterface = me.pluginInterface := by
        cases h1 : d.versionInfo; cases me; simp
      by_cases hd : d.versionInfo = me
      · simp only [ne_eq, hd, not_true_eq_false, if_false, ih]
        constructor
        · exact fun h => ⟨⟨d, rfl, hv.1 hd⟩, h⟩
        · exact fun h => h.2
      · simp only [ne_eq, hd, not_false_eq_true, if_true, reduceCtorEq, exists_false, false_iff, not_and]
        rintro ⟨d', h1, h2⟩
        injection h1 with h1; subst h1
        exact absurd (hv.2 h2) hd

theorem loadPlugins_entries {P : Type} (me : VersionInfo) (fs : String → PluginFile P) (paths : List String)
    (m m' : Entries P) (h : loadPlugins me fs paths m = .ok m') (name : String) (p : P) :
    m' name = some p ↔ LastDeclared fs name p paths ∨
      (m name = some p ∧ ∀ path ∈ paths, ∀ d, fs path = .plugin d → d.entries name = none) := by
  induction paths generalizing m with
  | nil =>
    simp only [loadPlugins, Except.ok.injEq] at h; subst h
    simp only [List.not_mem_nil, false_implies, implies_true, and_true]
    exact ⟨Or.inr, fun h => h.resolve_left (fun h => nomatch h)⟩
  | cons path rest ih =>
    rw [loadPlugins] at h
    cases hf : fs path with
    | notALibrary => simp [hf] at h
    | noSymbol => simp [hf] at h
    | plugin d =>
      simp only [hf] at h
      split at h
      · cases h
      · rw [ih _ h]
        constructor
        · rintro (h1 | ⟨h1, h2⟩)
          · exact Or.inl (.later h1)
          · unfold Entries.extend at h1
            cases hd : d.entries name with
            | some q =>
              simp only [hd, Option.some.injEq] at h1; subst h1
              exact Or.inl (.here hf hd h2)
            | none =>
              simp only [hd] at h1
              refine Or.inr ⟨h1, List.forall_mem_cons.2 ⟨?_, h2⟩⟩
              intro d' hd'; rw [hf] at hd'; injection hd' with hd'; subst hd'; exact hd
        · rintro (h1 | ⟨h1, h2⟩)
          · cases h1 with
            | later h => exact Or.inl h
            | here e1 e2 e3 =>
              rw [hf] at e1; injection e1 with e1; subst e1
              exact Or.inr ⟨by simp [Entries.extend, e2], e3⟩
          · obtain ⟨h3, h4⟩ := List.forall_mem_cons.1 h2
            exact Or.inr ⟨by simp [Entries.extend, h3 d hf, h1], h4⟩

/-! ### C47 -/

/-- A server with plugins starts exactly if every file is a library with the server's compiler and interface versions;
then a plugin is available under a name exactly if a library declares it, the last such library winning. -/
theorem C47_load {P : Type} (me : VersionInfo) (fs : String → PluginFile P) (paths : List String) :
    ((∃ m, newWithPlugins me fs paths = .ok m) ↔ ∀ path ∈ paths, ∃ d, Compatible me (fs path) d) ∧
    (∀ m, newWithPlugins me fs paths = .ok m → ∀ name p, m name = some p ↔ LastDeclared fs name p paths) := by
  refine ⟨loadPlugins_ok me fs paths _, fun m h name p => ?_⟩
  rw [loadPlugins_entries me fs paths _ m h name p]
  simp

/-- If it does not start, the error names the first file that is not compatible, and says how. -/
theorem C47_error {P : Type} (me : VersionInfo) (fs : String → PluginFile P) (pre : List String) (path : String)
    (rest : List String) (hpre : ∀ p ∈ pre, ∃ d, Compatible me (fs p) d) :
    ((∀ d, fs path ≠ .plugin d) → newWithPlugins me fs (pre ++ path :: rest) = .error (.libLoading path)) ∧
    (∀ d, fs path = .plugin d → d.versionInfo ≠ me →
      newWithPlugins me fs (pre ++ path :: rest) = .error (.versionMismatch path d.versionInfo me)) := by
  unfold newWithPlugins
  generalize (fun _ => none : Entries P) = m
  induction pre generalizing m with
  | nil =>
    constructor
    · intro h
      rw [List.nil_append, loadPlugins]
      cases hf : fs path with
      | notALibrary => rfl
      | noSymbol => rfl
      | plugin d => exact absurd hf (h d)
    · intro d hd hne
      rw [List.nil_append, loadPlugins, hd]
      simp [hne]
  | cons p pre ih =>
    obtain ⟨⟨d, h1, h2, h3⟩, hr⟩ := List.forall_mem_cons.1 hpre
    have hv : d.versionInfo = me := by cases h : d.versionInfo; cases me; simp_all
    have : ∀ m, loadPlugins me fs (p :: pre ++ path :: rest) m = loadPlugins me fs (pre ++ path :: rest) (m.extend d.entries) := by
      intro m
      rw [List.cons_append, loadPlugins, h1]
      simp [hv]
    rw [this]
    exact ih hr _

/-- Calling a plugin: a name that no library declares is answered with "not found", a bad argument with "invalid
argument", both without touching the database; else the plugin runs on the database with the given argument, `null` if there
is none, and its result or error is returned. -/
theorem C47_execute {σ : Type} (J : JsonText) (describe : PluginError → String) (m : Entries (PluginFn σ)) (name : String)
    (arg : Option PJson) (s : σ) :
    (∀ a e, arg = some a → a.conv J = .error e →
      executePlugin J describe m ⟨name, arg⟩ s = (s, .error (.invalidArgument e))) ∧
    (∀ v, (arg = none ∧ v = .null ∨ ∃ a, arg = some a ∧ a.conv J = .ok v) →
      (m name = none → executePlugin J describe m ⟨name, arg⟩ s = (s, .error .notFound)) ∧
      (∀ plugin, m name = some plugin →
        (executePlugin J describe m ⟨name, arg⟩ s).1 = (plugin s v).1 ∧
        (∀ x, (plugin s v).2 = .ok x → (executePlugin J describe m ⟨name, arg⟩ s).2 = .ok ⟨some (x.toProto J)⟩) ∧
        (∀ e, (plugin s v).2 = .error e → (executePlugin J describe m ⟨name, arg⟩ s).2 = .error (.plugin (describe e))))) := by
  constructor
  · rintro a e rfl h
    simp only [executePlugin, h, mapConversionResult]
  · intro v hv
    have key : executePlugin J describe m ⟨name, arg⟩ s = match m name with
        | none => (s, .error .notFound)
        | some plugin => match plugin s v with
          | (s', .ok v) => (s', .ok ⟨some (v.toProto J)⟩)
          | (s', .error e) => (s', .error (.plugin (describe e))) := by
      rcases hv with ⟨rfl, rfl⟩ | ⟨a, rfl, h⟩
      · simp only [executePlugin]; rfl
      · simp only [executePlugin, h, mapConversionResult]; rfl
    rw [key]
    constructor
    · intro h; rw [h]
    · intro plugin h
      rw [h]
      simp only
      generalize plugin s v = u
      obtain ⟨s', r⟩ := u
      cases r <;> simp

/-- Through the client: the caller gets what the plugin returned (values that survive printing and parsing). -/
theorem C47_client {σ : Type} (J : JsonText) (describe : PluginError → String) (m : Entries (PluginFn σ)) (name : String)
    (arg : Json) (ha : J.Faithful arg) (s : σ) :
    (m name = none → clientExecutePlugin J describe m name arg s = (s, .error (.grpc .notFound))) ∧
    (∀ plugin, m name = some plugin →
      (∀ s' x, plugin s arg = (s', .ok x) → J.Faithful x → clientExecutePlugin J describe m name arg s = (s', .ok x)) ∧
      (∀ s' e, plugin s arg = (s', .error e) →
        clientExecutePlugin J describe m name arg s = (s', .error (.grpc (.plugin (describe e)))))) := by
  have hc : (arg.toProto J).conv J = .ok arg := (PJson.conv_iff _ _ _).2 (Json.toProto_means J ha)
  constructor
  · intro h; simp [clientExecutePlugin, executePlugin, hc, mapConversionResult, h]
  · intro plugin h
    constructor
    · intro s' x hx hf
      simp [clientExecutePlugin, executePlugin, hc, mapConversionResult, h, hx,
        (PJson.conv_iff _ _ _).2 (Json.toProto_means J hf)]
    · intro s' e hx
      simp [clientExecutePlugin, executePlugin, hc, mapConversionResult, h, hx]

/-- Two libraries of the server's version, the second one overriding a name, and one of another version. -/
example : let me := VersionInfo.default "1.84"
    let fs : String → PluginFile Nat := fun p =>
      if p = "a" then .plugin (registerPlugins "1.84" 1 [("x", 1), ("y", 2)])
      else if p = "b" then .plugin (registerPlugins "1.84" 1 [("x", 3)])
      else .plugin (registerPlugins "1.83" 1 [("z", 4)])
    (∃ m, newWithPlugins me fs ["a", "b"] = .ok m ∧ m "x" = some 3 ∧ m "y" = some 2 ∧ m "z" = none) ∧
    newWithPlugins me fs ["a", "c", "b"] = .error (.versionMismatch "c" ⟨"1.83", 1⟩ me) := by
  refine ⟨⟨_, rfl, rfl, rfl, rfl⟩, rfl⟩

/-! ### C53 -/

/-- What is true of C53: a library whose plugins are declared with `register_plugins!` is accepted exactly if it was
compiled with the server's compiler and its host crate has interface version 1, the only one there is; its plugins are
those of the declaration, the last of a name winning. Missing: the version given to the macro, see `C53_refuted`. -/
theorem C53_partial {P : Type} (rustc rustc' : String) (v : UInt8) (plugins : List (String × P)) :
    (Compatible (VersionInfo.default rustc) (.plugin (registerPlugins rustc' v plugins)) (registerPlugins rustc' v plugins) ↔
      rustc' = rustc) ∧
    (∀ name p, (registerPlugins rustc' v plugins).entries name = some p ↔
      ∃ a b, plugins = a ++ (name, p) :: b ∧ ∀ q ∈ b, q.1 ≠ name) := by
  constructor
  · simp [Compatible, registerPlugins, VersionInfo.default]
  · intro name p
    have gen : ∀ (l : List (String × P)) (m : Entries P),
        l.foldl (fun m p => m.insert p.1 p.2) m name = some p ↔
          (∃ a b, l = a ++ (name, p) :: b ∧ ∀ q ∈ b, q.1 ≠ name) ∨ (m name = some p ∧ ∀ q ∈ l, q.1 ≠ name) := by
      intro l
      induction l with
      | nil => intro m; simp
      | cons x r ih =>
        intro m
        rw [List.foldl_cons, ih]
        constructor
        · rintro (⟨a, b, rfl, h⟩ | ⟨h1, h2⟩)
          · exact Or.inl ⟨x :: a, b, rfl, h⟩
          · unfold Entries.insert at h1
            split at h1
            · rename_i e
              injection h1 with h1
              exact Or.inl ⟨[], r, by obtain ⟨x1, x2⟩ := x; simp_all, h2⟩
            · rename_i e
              exact Or.inr ⟨h1, List.forall_mem_cons.2 ⟨fun h => e h.symm, h2⟩⟩
        · rintro (⟨a, b, h1, h2⟩ | ⟨h1, h2⟩)
          · cases a with
            | nil =>
              simp only [List.nil_append, List.cons.injEq] at h1
              obtain ⟨rfl, rfl⟩ := h1
              exact Or.inr ⟨by simp [Entries.insert], h2⟩
            | cons y a =>
              simp only [List.cons_append, List.cons.injEq] at h1
              exact Or.inl ⟨a, b, h1.2, h2⟩
          · obtain ⟨h3, h4⟩ := List.forall_mem_cons.1 h2
            refine Or.inr ⟨?_, h4⟩
            have : ¬ name = x.1 := fun h => h3 h.symm
            simp [Entries.insert, this, h1]
    have := gen plugins (fun _ => none)
    simpa [registerPlugins] using this

/-- C53 fails: a plugin that declares any other interface version is loaded all the same. -/
theorem C53_refuted {P : Type} (rustc : String) (v : UInt8) (plugins : List (String × P)) :
    ∃ m, newWithPlugins (VersionInfo.default rustc) (fun _ => .plugin (registerPlugins rustc v plugins)) ["plugin.so"] = .ok m ∧
      m = (registerPlugins rustc v plugins).entries := by
  refine ⟨_, ?_, rfl⟩
  simp only [newWithPlugins, loadPlugins, registerPlugins, ne_eq, not_true_eq_false, if_false, Except.ok.injEq]
  funext x
  simp only [Entries.extend]
  cases List.foldl (fun m p => Entries.insert m p.1 p.2) (fun _ => none) plugins x <;> rfl

end IndraDB
