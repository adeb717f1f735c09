import Verif.Proofs.AppMoments
import Verif.Props.Moments
import Verif.Props.RocksApp
/-
C73: what calls and transaction methods report that overlap others on a RocksDB datastore.
-/
namespace IndraDB
open Rocks Rocks.App
variable {X : Cfg} {io : Bool}

/-- Every execution without I/O errors can be watched, and watched executions are executions. -/
theorem C73_rocks_watch (s : Rocks) (h : List AppEv) (S : App) (c : Nat) :
    (App.Exec X false s h S → ∃ l, App.Watch X s c h l S) ∧ (∀ l, App.Watch X s c h l S → App.Exec X true s h S) :=
  ⟨fun hx => App.Watch.exists hx c, fun _ w => w.exec⟩

/-- C73: a call or transaction method that task `c` makes and that succeeds returns what is explained by the moments `l` while it was
under way. -/
theorem C73_rocks (hs : List (List AppEv)) (s : Rocks) (hl : AppLife X hs s) (hv : ∀ h ∈ hs, OkEnters (Access.ValuesOk (CanRead X)) h)
    (c : Nat) (h : List AppEv) (l : List Rocks) (S S' : App) (w : App.Watch X s c h l S) (ho : OkEnters (Access.ValuesOk (CanRead X)) h)
    (a : Access) (x : Answer) (hr : App.Step X io S [.leave c a (.ok x)] S') :
    Moment.Answered (Rocks.During X l) rocksEdgeLt a x := by
  have ok := w.ok (Sound.appLife hl hv) ho
  have H := w.looks (M := (· ∈ l)) (fun t ht => (ok t ht).wf) (fun t ht => (ok t ht).values.readable) (fun t ht => ht)
  cases hr with
  | leave _ _ k _ hi _ _ =>
    have key := (H _ _ _ hi).2
    cases a with
    | lib op =>
      cases op with
      | get q => exact key (.inr ⟨q, rfl⟩)
      | _ => trivial
    | write w => trivial
    | _ => exact key (.inl rfl)

/-- C73: in particular, every vertex that `all_vertices` and `range_vertices` of a transaction list was there at one moment of the call,
and so were all vertices that were there all the time. -/
theorem C73_rocks_all (hs : List (List AppEv)) (s : Rocks) (hl : AppLife X hs s) (hv : ∀ h ∈ hs, OkEnters (Access.ValuesOk (CanRead X)) h)
    (c : Nat) (h : List AppEv) (l : List Rocks) (S S' : App) (w : App.Watch X s c h l S) (ho : OkEnters (Access.ValuesOk (CanRead X)) h)
    (x : Answer) (hr : App.Step X io S [.leave c .allVertices (.ok x)] S') :
    ∃ vs : List Vertex, x = .vertices (vs.map .ok) ∧ (∃ t ∈ l, ∀ v ∈ vs, (Rocks.graph X t).vertex v.id = some v.t) ∧
      ∀ v, (∀ t ∈ l, (Rocks.graph X t).vertex v.id = some v.t) → v ∈ vs := by
  obtain ⟨m, vs, ⟨t, ht, rfl⟩, hvs, rfl⟩ := C73_rocks hs s hl hv c h l S S' w ho _ x hr
  exact ⟨vs, rfl, ⟨t, ht, fun v hv => (hvs.2 v).1 hv⟩, fun v hv => (hvs.2 v).2 (hv t ht)⟩

/-! ### Example -/

/-- A task that looks up vertices 1 and 2 in a transaction. -/
def W.looks : Task := .call (.specificVertices [W.u 1, W.u 2]) fun _ => .ret

/-- It looks up vertex 1, another task creates both vertices, and it looks up vertex 2. -/
def W.tornTxn : List App.Act :=
  [.start 0 W.looks, .start 1 W.joins, .step 0, .step 0] ++ List.replicate 12 (.step 1) ++ [.step 0]

/-- It is about to return vertex 2 only. -/
def W.tornView (h : List AppEv) (S : App) : Bool :=
  W.knownAll h && decide (S.writer = none) && decide (S.readers = []) && match S.tasks 0 with
  | .inside (.specificVertices ids) (.done (.ok (.vertices [.ok v]))) _ => decide (ids = [W.u 1, W.u 2]) && decide (v = ⟨W.u 2, W.t⟩)
  | _ => false

/-- The conditions of C73 are met by a call that returns what was never true. -/
example : ∃ h l S S', App.Watch (W.cfg .debug) Rocks.init 0 h l S ∧ AppLife (W.cfg .debug) [] Rocks.init ∧
    OkEnters (Access.ValuesOk (CanRead (W.cfg .debug))) h ∧
    App.Step (W.cfg .debug) false S [.leave 0 (.specificVertices [W.u 1, W.u 2]) (.ok (.vertices [.ok ⟨W.u 2, W.t⟩]))] S' := by
  obtain ⟨h, S, hx, hp⟩ := App.Exec.scheduled_calm (X := W.cfg .debug) (s := Rocks.init) W.tornTxn W.tornView (by decide +kernel)
    (by decide +kernel)
  obtain ⟨l, w⟩ := (C73_rocks_watch _ _ _ 0).1 hx
  simp only [W.tornView, Bool.and_eq_true] at hp
  obtain ⟨⟨⟨h1, h2⟩, h3⟩, h4⟩ := hp
  have h2 := of_decide_eq_true h2
  have h3 := of_decide_eq_true h3
  split at h4
  · next ids v k hc =>
    simp only [Bool.and_eq_true, decide_eq_true_eq] at h4
    obtain ⟨rfl, rfl⟩ := h4
    exact ⟨h, l, S, _, w, .new rfl, (W.knownAll_ok h1).mono (Access.ValuesOk.mono (fun _ => W.canRead)),
      .leave S 0 _ k _ hc (by rw [h2]; simp) (by rw [h3]; simp)⟩
  · cases h4

end IndraDB
