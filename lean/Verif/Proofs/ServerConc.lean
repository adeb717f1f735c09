import Verif.Spec.ServerConc
import Verif.Proofs.MutexConc
/-
Requests that are handled under one mutex are linearizable, also if handlers are dropped; and the handlers of the server on the
memory datastore are of this kind.
-/
namespace IndraDB
namespace Service
open LockConc (setAt_self setAt_ne)
variable {S : Service}

theorem Legal.append {s t u : S.State} {L M : List S.Lin} (h1 : S.Legal s L t) (h2 : S.Legal t M u) :
    S.Legal s (L ++ M) u := by
  induction L generalizing s with
  | nil => cases h1; exact h2
  | cons x L ih => exact ⟨h1.1, ih h1.2⟩

theorem Legal.single {s : S.State} (c : Nat) (env : S.Env) (op : S.Req) :
    S.Legal s [⟨c, env, op, (S.step env op s).2⟩] (S.step env op s).1 := ⟨rfl, rfl⟩

namespace Linearization
variable {h : List S.SEv} {L : List S.Lin} {t : S.State}

theorem nil : S.Linearization [] [] S.init where
  legal := rfl
  called := by simp
  once := by simp
  returned := by simp
  order := by intro a b c r c' op' h; simp at h

/-- A call with a new number is made. -/
theorem call (H : S.Linearization h L t) (c : Nat) (op : S.Req) (hc : ∀ op, SEv.call c op ∉ h) (hr : ∀ r, SEv.ret c r ∉ h) :
    S.Linearization (h ++ [.call c op]) L t where
  legal := H.legal
  called := fun x hx => List.mem_append_left _ (H.called x hx)
  once := H.once
  returned := by
    intro c' op' r' h1 h2
    have h2' : SEv.ret c' r' ∈ h := by simpa using h2
    rcases List.mem_append.1 h1 with h1 | h1
    · exact H.returned c' op' r' h1 h2'
    · simp at h1; obtain ⟨rfl, rfl⟩ := h1; exact absurd h2' (hr r')
  order := by
    intro a b c1 r1 c' op' he hb hL
    obtain ⟨x, hx, rfl⟩ := List.mem_map.1 hL
    have hne : x.c ≠ c := fun hc' => hc x.req (hc' ▸ H.called x hx)
    rcases List.eq_nil_or_concat b with rfl | ⟨b', y, rfl⟩
    · simp at hb
    · have he' : h ++ [SEv.call c op] = (a ++ SEv.ret c1 r1 :: b') ++ [y] := by simpa using he
      obtain ⟨h1, h2⟩ := List.append_inj' he' rfl
      have hb' : SEv.call x.c op' ∈ b' := by
        rcases List.mem_append.1 (List.concat_eq_append ▸ hb) with hb | hb
        · exact hb
        · simp at h2 hb
          rw [← hb] at h2
          injection h2 with h3 _
          exact absurd h3.symm hne
      exact H.order a b' c1 r1 _ op' h1 hb' hL

/-- A pending call takes effect. -/
theorem lin (H : S.Linearization h L t) (c : Nat) (env : S.Env) (op : S.Req) (hcall : SEv.call c op ∈ h)
    (hL : c ∉ L.map (·.c))
    (hcr : ∀ c r, SEv.ret c r ∈ h → ∃ op, SEv.call c op ∈ h) :
    S.Linearization h (L ++ [⟨c, env, op, (S.step env op t).2⟩]) (S.step env op t).1 where
  legal := H.legal.append (.single c env op)
  called := by
    intro x hx
    rcases List.mem_append.1 hx with hx | hx
    · exact H.called x hx
    · simp at hx; subst hx; exact hcall
  once := by
    rw [List.map_append]
    refine List.nodup_append.2 ⟨H.once, by simp, ?_⟩
    intro a ha b hb
    simp at hb; subst hb
    rintro rfl
    exact hL ha
  returned := by
    intro c' op' r' h1 h2
    obtain ⟨e, he⟩ := H.returned c' op' r' h1 h2
    exact ⟨e, List.mem_append_left _ he⟩
  order := by
    intro a b c1 r1 c' op' he hb hc'
    have hret : SEv.ret c1 r1 ∈ h := by rw [he]; simp
    rw [List.map_append] at hc' ⊢
    rcases List.mem_append.1 hc' with hc' | hc'
    · exact (H.order a b c1 r1 c' op' he hb hc').trans (List.sublist_append_left _ _)
    · simp at hc'; subst hc'
      obtain ⟨op1, h1⟩ := hcr c1 r1 hret
      obtain ⟨e, hm⟩ := H.returned c1 op1 r1 h1 hret
      have : [c1].Sublist (L.map (·.c)) := by
        rw [List.singleton_sublist]; exact List.mem_map.2 ⟨_, hm, rfl⟩
      exact List.Sublist.append this (List.Sublist.refl [c'])

/-- A call that has taken effect, or is not considered, returns. -/
theorem ret (H : S.Linearization h L t) (c : Nat) (r : S.Resp)
    (hx : ∀ op, SEv.call c op ∈ h → ∃ env, ⟨c, env, op, r⟩ ∈ L) : S.Linearization (h ++ [.ret c r]) L t where
  legal := H.legal
  called := fun x hx => List.mem_append_left _ (H.called x hx)
  once := H.once
  returned := by
    intro c' op' r' h1 h2
    have h1' : SEv.call c' op' ∈ h := by simpa using h1
    rcases List.mem_append.1 h2 with h2 | h2
    · exact H.returned c' op' r' h1' h2
    · simp at h2; obtain ⟨rfl, rfl⟩ := h2; exact hx op' h1'
  order := by
    intro a b c1 r1 c' op' he hb hL
    rcases List.eq_nil_or_concat b with rfl | ⟨b', y, rfl⟩
    · simp at hb
    · have he' : h ++ [SEv.ret c r] = (a ++ SEv.ret c1 r1 :: b') ++ [y] := by simpa using he
      obtain ⟨h1, h2⟩ := List.append_inj' he' rfl
      simp at h2
      have hb' : SEv.call c' op' ∈ b' := by
        rcases List.mem_append.1 (List.concat_eq_append ▸ hb) with hb | hb
        · exact hb
        · simp at hb; rw [← hb] at h2; cases h2
      exact H.order a b' c1 r1 _ op' h1 hb' hL

end Linearization

variable {prep : S.Env → S.Req → S.Resp ⊕ Body S.State S.Resp}

/-- What holds of a call number, given where the call is. -/
def CallOk (prep : S.Env → S.Req → S.Resp ⊕ Body S.State S.Resp) (h : List S.SEv) (L : List S.Lin) (owner : Option Nat) (c : Nat) :
    S.Phase → Prop
  | .unused => (∀ op, SEv.call c op ∉ h) ∧ (∀ r, SEv.ret c r ∉ h)
  | .waiting p => (∃ env op, SEv.call c op ∈ h ∧ prep env op = .inr p) ∧ (∀ r, SEv.ret c r ∉ h) ∧ c ∉ L.map (·.c)
  | .inside _ => owner = some c
  | .leaving r => (∃ op, SEv.call c op ∈ h) ∧ (∀ op, SEv.call c op ∈ h → ∃ env, ⟨c, env, op, r⟩ ∈ L) ∧ ∀ r, SEv.ret c r ∉ h
  | .finished => ∃ op, SEv.call c op ∈ h

structure LInv (prep : S.Env → S.Req → S.Resp ⊕ Body S.State S.Resp) (h : List S.SEv) (C : S.Conc) (L : List S.Lin)
    (t : S.State) : Prop where
  lin : S.Linearization h L t
  calls : ∀ c, CallOk prep h L C.owner c (C.calls c)
  uniq : ∀ c op op', SEv.call c op ∈ h → SEv.call c op' ∈ h → op = op'
  rets : ∀ c r, SEv.ret c r ∈ h → ∃ op, SEv.call c op ∈ h
  free : C.owner = none → C.db = t
  held : ∀ c, C.owner = some c → ∃ env op p, C.calls c = .inside p ∧ SEv.call c op ∈ h ∧ (∀ r, SEv.ret c r ∉ h) ∧
    c ∉ L.map (·.c) ∧ p.run C.db = S.step env op t

theorem CallOk.mono {h h' : List S.SEv} {L L' : List S.Lin} {o o' : Option Nat} {c : Nat} {x : S.Phase}
    (H : CallOk prep h L o c x) (h1 : ∀ op, SEv.call c op ∈ h' ↔ SEv.call c op ∈ h) (h2 : ∀ r, SEv.ret c r ∈ h' ↔ SEv.ret c r ∈ h)
    (h3 : ∀ y ∈ L, y ∈ L') (h4 : c ∈ L'.map (·.c) → c ∈ L.map (·.c)) (h5 : o = some c → o' = some c) :
    CallOk prep h' L' o' c x := by
  cases x with
  | unused => exact ⟨fun op hh => H.1 op ((h1 op).1 hh), fun r hh => H.2 r ((h2 r).1 hh)⟩
  | waiting p =>
    obtain ⟨⟨env, op, hc, hp⟩, hr, hl⟩ := H
    exact ⟨⟨env, op, (h1 op).2 hc, hp⟩, fun r hh => hr r ((h2 r).1 hh), fun hh => hl (h4 hh)⟩
  | inside p => exact h5 H
  | leaving r =>
    obtain ⟨⟨op, hop⟩, h6, h7⟩ := H
    refine ⟨⟨op, (h1 op).2 hop⟩, fun op hh => ?_, fun r hh => h7 r ((h2 r).1 hh)⟩
    obtain ⟨e, he⟩ := h6 op ((h1 op).1 hh)
    exact ⟨e, h3 _ he⟩
  | finished => exact H.imp (fun op hh => (h1 op).2 hh)

theorem LInv.step (hb : ∀ env op p, prep env op = .inr p → ∀ s, p.run s = S.step env op s)
    (hj : ∀ env op r, prep env op = .inl r → ∀ s, S.step env op s = (s, r)) {h e : List S.SEv} {C C' : S.Conc}
    {L : List S.Lin} {t : S.State} (H : LInv prep h C L t) (hs : Conc.Step prep C e C') :
    ∃ L' t', LInv prep (h ++ e) C' L' t' := by
  cases hs with
  | accept c env op p hc hpr =>
    have H1 := H.calls c
    rw [hc] at H1
    obtain ⟨hn, hr⟩ := H1
    have hL : c ∉ L.map (·.c) := by
      intro hx
      obtain ⟨x, hm, rfl⟩ := List.mem_map.1 hx
      exact hn _ (H.lin.called x hm)
    refine ⟨L, t, H.lin.call c op hn hr, ?_, ?_, ?_, H.free, ?_⟩
    · intro i
      by_cases hi : i = c
      · subst hi
        show CallOk _ _ _ _ _ (setAt _ _ _ _)
        rw [setAt_self]
        exact ⟨⟨env, op, by simp, hpr⟩, by simpa using hr, hL⟩
      · show CallOk _ _ _ _ _ (setAt _ _ _ _)
        rw [setAt_ne _ _ hi]
        exact (H.calls i).mono (by simp [hi]) (by simp) (fun _ h => h) id id
    · intro i op1 op2 h1 h2
      by_cases hi : i = c
      · subst hi
        have e1 : op1 = op := by simpa [hn] using h1
        have e2 : op2 = op := by simpa [hn] using h2
        rw [e1, e2]
      · exact H.uniq i op1 op2 (by simpa [hi] using h1) (by simpa [hi] using h2)
    · intro i r h1
      obtain ⟨op1, h2⟩ := H.rets i r (by simpa using h1)
      exact ⟨op1, List.mem_append_left _ h2⟩
    · intro i ho
      obtain ⟨env', op', p, h1, h2, h3, h4, h5⟩ := H.held i ho
      have hi : i ≠ c := by rintro rfl; rw [hc] at h1; cases h1
      refine ⟨env', op', p, ?_, List.mem_append_left _ h2, by simpa using h3, h4, h5⟩
      show setAt _ _ _ _ = _
      rw [setAt_ne _ _ hi]; exact h1
  | lock c p hc ho =>
    have H1 := H.calls c
    rw [hc] at H1
    obtain ⟨⟨env, op, hop, hp⟩, hr, hL⟩ := H1
    refine ⟨L, t, by simpa using H.lin, ?_, by simpa using H.uniq, by simpa using H.rets, by simp, ?_⟩
    · intro i
      show CallOk _ _ _ _ _ (setAt _ _ _ _)
      by_cases hi : i = c
      · subst hi; rw [setAt_self]; exact rfl
      · rw [setAt_ne _ _ hi]
        exact (H.calls i).mono (by simp) (by simp) (fun _ h => h) id (fun h => by rw [ho] at h; cases h)
    · rintro i hi
      cases hi
      refine ⟨env, op, p, setAt_self _ _ _, by simpa using hop, by simpa using hr, hL, ?_⟩
      show p.run C.db = _
      rw [H.free ho]; exact hb env op p hp t
  | work c f n hc =>
    have H1 := H.calls c
    rw [hc] at H1
    have ho : C.owner = some c := H1
    obtain ⟨env, op, p, h1, h2, h3, h4, h5⟩ := H.held c ho
    rw [hc] at h1
    cases h1
    refine ⟨L, t, by simpa using H.lin, ?_, by simpa using H.uniq, by simpa using H.rets, ?_, ?_⟩
    · intro i
      show CallOk _ _ _ _ _ (setAt _ _ _ _)
      by_cases hi : i = c
      · subst hi; rw [setAt_self]; exact ho
      · rw [setAt_ne _ _ hi]
        exact (H.calls i).mono (by simp) (by simp) (fun _ h => h) id id
    · intro h; have h' : C.owner = none := h; rw [ho] at h'; cases h'
    · intro i hi
      have hi' : C.owner = some i := hi
      rw [ho] at hi'; cases hi'
      exact ⟨env, op, _, setAt_self _ _ _, by simpa using h2, by simpa using h3, h4, h5⟩
  | unlock c r hc =>
    have H1 := H.calls c
    rw [hc] at H1
    have ho : C.owner = some c := H1
    obtain ⟨env, op, p, h1, h2, h3, h4, h5⟩ := H.held c ho
    rw [hc] at h1
    cases h1
    have h5a : C.db = (S.step env op t).1 := congrArg Prod.fst h5
    have h5b : r = (S.step env op t).2 := congrArg Prod.snd h5
    refine ⟨_, _, by simpa using H.lin.lin c env op h2 h4 H.rets, ?_, by simpa using H.uniq, by simpa using H.rets,
      fun _ => h5a, by simp⟩
    intro i
    show CallOk _ _ _ _ _ (setAt _ _ _ _)
    by_cases hi : i = c
    · subst hi; rw [setAt_self]
      refine ⟨⟨op, by simpa using h2⟩, ?_, by simpa using h3⟩
      intro op' hop'
      have := H.uniq i op' op (by simpa using hop') h2
      subst this
      exact ⟨env, by rw [h5b]; simp⟩
    · rw [setAt_ne _ _ hi]
      refine (H.calls i).mono (by simp) (by simp) (fun _ h => List.mem_append_left _ h) (fun h => ?_) (fun h => ?_)
      · rw [List.map_append] at h
        rcases List.mem_append.1 h with h | h
        · exact h
        · simp at h; exact absurd h hi
      · rw [ho] at h; cases h; exact absurd rfl hi
  | respond c r hc =>
    have H1 := H.calls c
    rw [hc] at H1
    obtain ⟨⟨op, hop⟩, h1, h2⟩ := H1
    refine ⟨L, t, H.lin.ret c r (fun op h => h1 op h), ?_, by simpa using H.uniq, ?_, H.free, ?_⟩
    · intro i
      show CallOk _ _ _ _ _ (setAt _ _ _ _)
      by_cases hi : i = c
      · subst hi; rw [setAt_self]; exact ⟨op, List.mem_append_left _ hop⟩
      · rw [setAt_ne _ _ hi]
        exact (H.calls i).mono (by simp) (by simp [hi]) (fun _ h => h) id id
    · intro i r' h3
      rcases List.mem_append.1 h3 with h3 | h3
      · obtain ⟨op', h4⟩ := H.rets i r' h3
        exact ⟨op', List.mem_append_left _ h4⟩
      · simp at h3; obtain ⟨rfl, rfl⟩ := h3; exact ⟨op, List.mem_append_left _ hop⟩
    · intro i ho
      obtain ⟨env', op', p, h3, h4, h5, h6, h7⟩ := H.held i ho
      have hi : i ≠ c := by rintro rfl; rw [hc] at h3; cases h3
      refine ⟨env', op', p, ?_, List.mem_append_left _ h4, by simpa [hi] using h5, h6, h7⟩
      show setAt _ _ _ _ = _
      rw [setAt_ne _ _ hi]; exact h3

  | reject c env op r hc hpr =>
    have H1 := H.calls c
    rw [hc] at H1
    obtain ⟨hn, hr⟩ := H1
    have hL : c ∉ L.map (·.c) := by
      intro hx
      obtain ⟨x, hm, rfl⟩ := List.mem_map.1 hx
      exact hn _ (H.lin.called x hm)
    have hrets : ∀ i r, SEv.ret i r ∈ h ++ [SEv.call c op] → ∃ op', SEv.call i op' ∈ h ++ [SEv.call c op] := by
      intro i r h1
      obtain ⟨op1, h2⟩ := H.rets i r (by simpa using h1)
      exact ⟨op1, List.mem_append_left _ h2⟩
    have hst := hj env op r hpr t
    have hlin := (H.lin.call c op hn hr).lin c env op (by simp) hL hrets
    rw [hst] at hlin
    refine ⟨_, t, hlin, ?_, ?_, hrets, H.free, ?_⟩
    · intro i
      show CallOk _ _ _ _ _ (setAt _ _ _ _)
      by_cases hi : i = c
      · subst hi; rw [setAt_self]
        refine ⟨⟨op, by simp⟩, ?_, by simpa using hr⟩
        intro op' hop'
        have : op' = op := by simpa [hn] using hop'
        subst this
        exact ⟨env, by simp⟩
      · rw [setAt_ne _ _ hi]
        refine (H.calls i).mono (by simp [hi]) (by simp) (fun _ h => List.mem_append_left _ h) (fun h => ?_) id
        rw [List.map_append] at h
        rcases List.mem_append.1 h with h | h
        · exact h
        · simp at h; exact absurd h hi
    · intro i op1 op2 h1 h2
      by_cases hi : i = c
      · subst hi
        have e1 : op1 = op := by simpa [hn] using h1
        have e2 : op2 = op := by simpa [hn] using h2
        rw [e1, e2]
      · exact H.uniq i op1 op2 (by simpa [hi] using h1) (by simpa [hi] using h2)
    · intro i ho
      obtain ⟨env', op', p, h1, h2, h3, h4, h5⟩ := H.held i ho
      have hi : i ≠ c := by rintro rfl; rw [hc] at h1; cases h1
      refine ⟨env', op', p, ?_, List.mem_append_left _ h2, by simpa using h3, ?_, h5⟩
      · show setAt _ _ _ _ = _
        rw [setAt_ne _ _ hi]; exact h1
      · rw [List.map_append]
        intro hm
        rcases List.mem_append.1 hm with hm | hm
        · exact h4 hm
        · simp at hm; exact hi hm
  | dropWaiting c p hc =>
    have H1 := H.calls c
    rw [hc] at H1
    obtain ⟨⟨env, op, hop, _⟩, _, _⟩ := H1
    refine ⟨L, t, by simpa using H.lin, ?_, by simpa using H.uniq, by simpa using H.rets, H.free, ?_⟩
    · intro i
      show CallOk _ _ _ _ _ (setAt _ _ _ _)
      by_cases hi : i = c
      · subst hi; rw [setAt_self]; exact ⟨op, by simpa using hop⟩
      · rw [setAt_ne _ _ hi]
        exact (H.calls i).mono (by simp) (by simp) (fun _ h => h) id id
    · intro i ho
      obtain ⟨env', op', p', h3, h4, h5, h6, h7⟩ := H.held i ho
      have hi : i ≠ c := by rintro rfl; rw [hc] at h3; cases h3
      refine ⟨env', op', p', ?_, by simpa using h4, by simpa using h5, h6, h7⟩
      show setAt _ _ _ _ = _
      rw [setAt_ne _ _ hi]; exact h3
  | dropLeaving c r hc =>
    have H1 := H.calls c
    rw [hc] at H1
    obtain ⟨⟨op, hop⟩, _, _⟩ := H1
    refine ⟨L, t, by simpa using H.lin, ?_, by simpa using H.uniq, by simpa using H.rets, H.free, ?_⟩
    · intro i
      show CallOk _ _ _ _ _ (setAt _ _ _ _)
      by_cases hi : i = c
      · subst hi; rw [setAt_self]; exact ⟨op, by simpa using hop⟩
      · rw [setAt_ne _ _ hi]
        exact (H.calls i).mono (by simp) (by simp) (fun _ h => h) id id
    · intro i ho
      obtain ⟨env', op', p', h3, h4, h5, h6, h7⟩ := H.held i ho
      have hi : i ≠ c := by rintro rfl; rw [hc] at h3; cases h3
      refine ⟨env', op', p', ?_, by simpa using h4, by simpa using h5, h6, h7⟩
      show setAt _ _ _ _ = _
      rw [setAt_ne _ _ hi]; exact h3

theorem LInv.exec (hb : ∀ env op p, prep env op = .inr p → ∀ s, p.run s = S.step env op s)
    (hj : ∀ env op r, prep env op = .inl r → ∀ s, S.step env op s = (s, r)) {h : List S.SEv} {C : S.Conc}
    (hx : Conc.Exec prep h C) : ∃ L t, LInv prep h C L t := by
  induction hx with
  | nil =>
    refine ⟨[], S.init, .nil, ?_, by simp, by simp, fun _ => rfl, ?_⟩
    · intro c; exact ⟨by simp, by simp⟩
    · intro c hc; cases hc
  | snoc _ hs ih =>
    obtain ⟨L, t, H⟩ := ih
    exact H.step hb hj hs


end Service

theorem Body.map_run {σ α β : Type} (f : α → β) (p : Body σ α) : ∀ s, (p.map f).run s = ((p.run s).1, f (p.run s).2) := by
  induction p with
  | done a => intro s; rfl
  | act g n ih => intro s; exact ih s (g s)

/-- The small steps of a plugin add up to the plugin. -/
theorem pluginBody_run {b : Build} (p : PluginProg) : ∀ (env : Nat → Finder × HashOrder) (d : MemDb), d.poisoned = false →
    (pluginBody b p env).run d = MemDb.plugin b env p d := by
  induction p with
  | ret r =>
    intro env d hp
    obtain ⟨m, x⟩ := d
    cases hp
    rfl
  | panic =>
    intro env d hp
    obtain ⟨m, x⟩ := d
    cases hp
    rfl
  | read k ih =>
    intro env d hp
    have := ih (Mem.reads (env 0).1 (env 0).2 d.mem) (fun i => env (i + 1)) d hp
    simp only [pluginBody, Body.run]
    rw [this]
    unfold MemDb.plugin
    rw [if_neg (by simp [hp]), if_neg (by simp [hp])]
    rfl
  | write c k ih =>
    intro env d hp
    simp only [pluginBody, Body.run]
    unfold MemDb.plugin
    rw [if_neg (by simp [hp])]
    simp only [PluginProg.run]
    generalize (Mem.txn (env 0).1 (env 0).2 b).call c d.mem = u
    obtain ⟨m, r⟩ := u
    cases r with
    | ok a =>
      have := ih (.ok a) (fun i => env (i + 1)) ⟨m, false⟩ rfl
      simp only
      rw [this]
      unfold MemDb.plugin
      rw [if_neg (by simp)]
    | error f =>
      cases f with
      | panic => rfl
      | err e =>
        have := ih (.error e) (fun i => env (i + 1)) ⟨m, false⟩ rfl
        simp only
        rw [this]
        unfold MemDb.plugin
        rw [if_neg (by simp)]

section
variable (letter : Char → Bool) (J : JsonText)

/-- A handler is: conversion, one library call, and the response. -/
theorem handle_eq (S : Store) (env : S.Env) (req : Request) (s : S.State) : S.handle letter J env req s =
    match req.op letter J with
    | .error st => (s, .error st)
    | .ok op => ((S.step env op s).1, req.respond J (S.step env op s).2) := by
  cases req with
  | sync =>
    simp only [Store.handle, Request.op, Store.serve]
    generalize S.step env .sync s = u
    obtain ⟨s', r⟩ := u
    cases r <;> rfl
  | createVertex m =>
    simp only [Store.handle, Request.op]
    cases mapConversionResult (m.conv letter) with
    | error st => rfl
    | ok v =>
      simp only [Except.map, Store.serve]
      generalize S.step env (.createVertex v) s = u
      obtain ⟨s', r⟩ := u
      cases r with
      | ok a => cases a <;> rfl
      | error f => rfl
  | createVertexFromType id m =>
    simp only [Store.handle, Request.op]
    cases mapConversionResult (m.conv letter) with
    | error st => rfl
    | ok v =>
      simp only [Except.map, Store.serve]
      generalize S.step env (.createVertexFromType id v) s = u
      obtain ⟨s', r⟩ := u
      cases r with
      | ok a => cases a <;> rfl
      | error f => rfl
  | createEdge m =>
    simp only [Store.handle, Request.op]
    cases mapConversionResult (m.conv letter) with
    | error st => rfl
    | ok v =>
      simp only [Except.map, Store.serve]
      generalize S.step env (.createEdge v) s = u
      obtain ⟨s', r⟩ := u
      cases r with
      | ok a => cases a <;> rfl
      | error f => rfl
  | get m =>
    simp only [Store.handle, Request.op]
    cases mapConversionResult (m.conv letter J) with
    | error st => rfl
    | ok v => rfl
  | delete m =>
    simp only [Store.handle, Request.op]
    cases mapConversionResult (m.conv letter J) with
    | error st => rfl
    | ok v =>
      simp only [Except.map, Store.serve]
      generalize S.step env (.delete v) s = u
      obtain ⟨s', r⟩ := u
      cases r <;> rfl
  | setProperties m =>
    simp only [Store.handle, Request.op]
    cases mapConversionResult (m.conv letter J) with
    | error st => rfl
    | ok v =>
      obtain ⟨q, n, x⟩ := v
      simp only [Except.map, Store.serve]
      generalize S.step env (.setProperties q n x) s = u
      obtain ⟨s', r⟩ := u
      cases r <;> rfl
  | bulkInsert stream =>
    simp only [Store.handle, Request.op]
    cases readItems letter J stream with
    | error st => rfl
    | ok v =>
      simp only [Except.map, Store.serve]
      generalize S.step env (.bulkInsert v) s = u
      obtain ⟨s', r⟩ := u
      cases r <;> rfl
  | indexProperty m =>
    simp only [Store.handle, Request.op]
    cases mapConversionResult (m.conv letter) with
    | error st => rfl
    | ok v =>
      simp only [Except.map, Store.serve]
      generalize S.step env (.indexProperty v) s = u
      obtain ⟨s', r⟩ := u
      cases r <;> rfl

variable {b : Build} {describe : PluginError → String} {reset : Nat} {entries : Entries (Json → PluginProg)}

theorem memPrep_inl (env : Nat → Finder × HashOrder) (req : ServerRequest) (r : ServerResponse)
    (h : memPrep letter J b describe reset entries env req = .inl r) (d : MemDb) :
    (memServer letter J b describe reset entries).step env req d = (d, r) := by
  cases req with
  | ping => cases h; rfl
  | lib req =>
    simp only [memPrep] at h
    simp only [memServer]
    have := handle_eq letter J (memStoreAny b) (env 0) req d
    generalize (memStoreAny b).handle letter J (env 0) req d = u at this ⊢
    subst this
    cases hq : req.op letter J with
    | error st => rw [hq] at h; cases h; rfl
    | ok op => rw [hq] at h; cases h
  | plugin m =>
    simp only [memPrep] at h
    simp only [memServer]
    cases hq : pluginToRun J entries m with
    | error st => rw [hq] at h; cases h; rfl
    | ok p => rw [hq] at h; cases h

theorem memPrep_inr (env : Nat → Finder × HashOrder) (req : ServerRequest) (p : Body MemDb ServerResponse)
    (h : memPrep letter J b describe reset entries env req = .inr p) (d : MemDb) :
    p.run d = (memServer letter J b describe reset entries).step env req d := by
  cases req with
  | ping => cases h
  | lib req =>
    simp only [memPrep] at h
    simp only [memServer]
    have := handle_eq letter J (memStoreAny b) (env 0) req d
    generalize (memStoreAny b).handle letter J (env 0) req d = u at this ⊢
    subst this
    cases hq : req.op letter J with
    | error st => rw [hq] at h; cases h
    | ok op =>
      rw [hq] at h
      cases h
      rw [Body.map_run, Mem.body_run]
      rfl
  | plugin m =>
    simp only [memPrep] at h
    simp only [memServer]
    cases hq : pluginToRun J entries m with
    | error st => rw [hq] at h; cases h
    | ok q =>
      rw [hq] at h
      cases h
      simp only [Body.run]
      cases hp : d.poisoned with
      | true =>
        have : MemDb.plugin b env q d = (d, .error .panic) := by unfold MemDb.plugin; rw [if_pos hp]
        rw [this]; rfl
      | false =>
        rw [if_neg (by simp), Body.map_run, pluginBody_run q env d hp]

end
end IndraDB
