import Verif.Spec.Linear
/-
Building linearizations step by step.
-/
namespace IndraDB
namespace Store
variable {S : Store}

theorem Legal.append {s t u : S.State} {L M : List S.Lin} (h1 : S.Legal s L t) (h2 : S.Legal t M u) :
    S.Legal s (L ++ M) u := by
  induction L generalizing s with
  | nil => cases h1; exact h2
  | cons x L ih => exact ⟨h1.1, ih h1.2⟩

theorem Legal.single {s : S.State} (c : Nat) (env : S.Env) (op : Op) :
    S.Legal s [⟨c, env, op, (S.step env op s).2⟩] (S.step env op s).1 := ⟨rfl, rfl⟩

namespace Linearization
variable {P : Op → Prop} {h : List Ev} {L : List S.Lin} {t : S.State}

theorem nil : S.Linearization P [] [] S.init where
  legal := rfl
  called := by simp
  once := by simp
  returned := by simp
  order := by intro a b c r c' op' h; simp at h

/-- A call with a new number is made. -/
theorem call (H : S.Linearization P h L t) (c : Nat) (op : Op) (hc : ∀ op, Ev.call c op ∉ h) (hr : ∀ r, Ev.ret c r ∉ h) :
    S.Linearization P (h ++ [.call c op]) L t where
  legal := H.legal
  called := fun x hx => ⟨List.mem_append_left _ (H.called x hx).1, (H.called x hx).2⟩
  once := H.once
  returned := by
    intro c' op' r' h1 hP h2
    have h2' : Ev.ret c' r' ∈ h := by simpa using h2
    rcases List.mem_append.1 h1 with h1 | h1
    · exact H.returned c' op' r' h1 hP h2'
    · simp at h1; obtain ⟨rfl, rfl⟩ := h1; exact absurd h2' (hr r')
  order := by
    intro a b c1 r1 c' op' he hb hP hL
    obtain ⟨x, hx, rfl⟩ := List.mem_map.1 hL
    have hne : x.c ≠ c := fun hc' => hc x.op (hc' ▸ (H.called x hx).1)
    rcases List.eq_nil_or_concat b with rfl | ⟨b', y, rfl⟩
    · simp at hb
    · have he' : h ++ [Ev.call c op] = (a ++ Ev.ret c1 r1 :: b') ++ [y] := by simpa using he
      obtain ⟨h1, h2⟩ := List.append_inj' he' rfl
      have hb' : Ev.call x.c op' ∈ b' := by
        rcases List.mem_append.1 (List.concat_eq_append ▸ hb) with hb | hb
        · exact hb
        · simp at h2 hb
          rw [← hb] at h2
          injection h2 with h3 _
          exact absurd h3.symm hne
      exact H.order a b' c1 r1 _ op' h1 hb' (fun op2 hop => hP op2 (List.mem_append_left _ hop)) hL

/-- A pending call takes effect. -/
theorem lin (H : S.Linearization P h L t) (c : Nat) (env : S.Env) (op : Op) (hcall : Ev.call c op ∈ h) (hP : P op)
    (hL : c ∉ L.map (·.c))
    (hcr : ∀ c r, Ev.ret c r ∈ h → ∃ op, Ev.call c op ∈ h) :
    S.Linearization P h (L ++ [⟨c, env, op, (S.step env op t).2⟩]) (S.step env op t).1 where
  legal := H.legal.append (.single c env op)
  called := by
    intro x hx
    rcases List.mem_append.1 hx with hx | hx
    · exact H.called x hx
    · simp at hx; subst hx; exact ⟨hcall, hP⟩
  once := by
    rw [List.map_append]
    refine List.nodup_append.2 ⟨H.once, by simp, ?_⟩
    intro a ha b hb
    simp at hb; subst hb
    rintro rfl
    exact hL ha
  returned := by
    intro c' op' r' h1 hP h2
    obtain ⟨e, he⟩ := H.returned c' op' r' h1 hP h2
    exact ⟨e, List.mem_append_left _ he⟩
  order := by
    intro a b c1 r1 c' op' he hb hP' hc'
    have hret : Ev.ret c1 r1 ∈ h := by rw [he]; simp
    rw [List.map_append] at hc' ⊢
    rcases List.mem_append.1 hc' with hc' | hc'
    · exact (H.order a b c1 r1 c' op' he hb hP' hc').trans (List.sublist_append_left _ _)
    · simp at hc'; subst hc'
      obtain ⟨op1, h1⟩ := hcr c1 r1 hret
      obtain ⟨e, hm⟩ := H.returned c1 op1 r1 h1 (hP' op1 h1) hret
      have : [c1].Sublist (L.map (·.c)) := by
        rw [List.singleton_sublist]; exact List.mem_map.2 ⟨_, hm, rfl⟩
      exact List.Sublist.append this (List.Sublist.refl [c'])

/-- A call that has taken effect, or is not considered, returns. -/
theorem ret (H : S.Linearization P h L t) (c : Nat) (r : Res Reply)
    (hx : ∀ op, Ev.call c op ∈ h → P op → ∃ env, ⟨c, env, op, r⟩ ∈ L) : S.Linearization P (h ++ [.ret c r]) L t where
  legal := H.legal
  called := fun x hx => ⟨List.mem_append_left _ (H.called x hx).1, (H.called x hx).2⟩
  once := H.once
  returned := by
    intro c' op' r' h1 hP h2
    have h1' : Ev.call c' op' ∈ h := by simpa using h1
    rcases List.mem_append.1 h2 with h2 | h2
    · exact H.returned c' op' r' h1' hP h2
    · simp at h2; obtain ⟨rfl, rfl⟩ := h2; exact hx op' h1' hP
  order := by
    intro a b c1 r1 c' op' he hb hP hL
    rcases List.eq_nil_or_concat b with rfl | ⟨b', y, rfl⟩
    · simp at hb
    · have he' : h ++ [Ev.ret c r] = (a ++ Ev.ret c1 r1 :: b') ++ [y] := by simpa using he
      obtain ⟨h1, h2⟩ := List.append_inj' he' rfl
      simp at h2
      have hb' : Ev.call c' op' ∈ b' := by
        rcases List.mem_append.1 (List.concat_eq_append ▸ hb) with hb | hb
        · exact hb
        · simp at hb; rw [← hb] at h2; cases h2
      exact H.order a b' c1 r1 _ op' h1 hb' (fun op2 hop => hP op2 (List.mem_append_left _ hop)) hL

end Linearization
end Store
end IndraDB
