import Verif.Live.Launch
import Verif.Compile.Props
/-
The processes that a compilation builds can be started.
-/
namespace Verif.Live
open Verif.Wiring (Name)
open Verif.Compile

/-- In a service's process, what the service is built from is there. -/
theorem closed_of_whole {A : App} {rank : Name → Nat} {nodes : List Name} (fit : A.Fits rank) (req : A.Requests nodes) {H : Svc → Tree}
    (hH : ∀ S, A.Active nodes S → S.back = false → H S = .handler S.name (S.args.map (A.argTree H))) {s : St}
    (hn : ∀ sp t, t ∈ s.nodes sp ↔ A.Expected nodes H sp t) (he : ∀ sp t, t ∈ s.edges sp ↔ A.Needed nodes sp t)
    (hd : ∀ sp, ((s.nodes sp ++ s.edges sp).map Tree.name).Nodup) {S : Svc} (hS : A.Active nodes S) (hk : S.back = false) {x : Name} {b : Space}
    (hx : S.home = x :: b) : Proc.Closed ⟨s.nodes (x :: b), s.edges (x :: b)⟩ := by
  have C := closed_of fit req
  have front : ∀ V, A.Active nodes V → V.home = x :: b → V.back = false := by
    intro V hV hh
    have h1 := fit.homes S (active_mem hS) [] x b (by simpa using hx)
    have h2 := fit.homes V (active_mem hV) [] x b (by simpa using hh)
    have := fit.level _ _ _ h1 h2
    cases hb : V.back with
    | false => rfl
    | true => simp [Svc.base, hk, hb] at this
  have served : ∀ V, A.Active nodes V → V.home = x :: b → ∀ l1 l2, servers V.name V.wraps = l1 ++ l2 →
      A.Expected nodes H (x :: b) (wrapOut l1 (H V)) := by
    intro V hV hh l1 l2 e
    rcases List.eq_nil_or_concat l1 with rfl | ⟨l', y, rfl⟩
    · rw [← hh]; exact .handler hV (front V hV hh)
    · rw [← hh, List.concat_eq_append]
      exact .serverWrap hV (front V hV hh) (l2 := l2) (by rw [e]; simp)
  have called : ∀ V, A.Calls nodes (x :: b) V → A.Expected nodes H (x :: b) (V.calledTree (H V)) := by
    intro V hV
    unfold Svc.calledTree
    split
    · rename_i hr; exact .grpcClient hV hr
    · rename_i hr
      have hu := C.called _ _ hV
      rcases hu.2 with ⟨_, h⟩ | ⟨h, _⟩
      · exact served V hu.1 h.symm _ [] (by simp)
      · exact absurd h hr
  have wrapped : ∀ V, A.Calls nodes (x :: b) V → V.back = false → ∀ l1 l2, clients V.name V.wraps = l1 ++ l2 →
      A.Expected nodes H (x :: b) (wrapIn l2 (V.calledTree (H V))) := by
    intro V hV hb l1 l2 e
    cases l2 with
    | nil => exact called V hV
    | cons y l2 => exact .clientWrap hV hb e
  refine ⟨hd _, ?_, ?_, ?_⟩
  · intro t ht
    have := (hn _ _).1 ht
    generalize hsp : x :: b = sp at this
    cases this with
    | @handler V hV hb => exact .inl ⟨_, _, hH V hV hb⟩
    | @serverWrap V l1 l2 y hV hb e => exact .inr (.inl ⟨y, wrapOut l1 (H V), by simp [wrapOut]⟩)
    | @server V hV hr => exact .inr (.inr (.inr ⟨_, _, _, by simp only [Svc.servedTree, hr, front V hV hsp.symm, Bool.false_eq_true, if_false, if_true]; rfl⟩))
    | @client V sp hV hb => exact .inr (.inl ⟨clientN V.name, _, by simp only [Svc.clientTree, hb, Bool.false_eq_true, if_false]; rfl⟩)
    | @clientWrap V sp l1 l2 y hV hb e => exact .inr (.inl ⟨_, _, rfl⟩)
    | grpcClient hV hr => exact .inr (.inr (.inl ⟨_, _, rfl⟩))
    | visibility => cases hsp
    | addr => cases hsp
    | bind => cases hsp
    | dial => cases hsp
    | @space V a b' y hV e =>
      exfalso
      have h1 := fit.homes S (active_mem hS) [] x b (by simpa using hx)
      have h2 := fit.homes V (active_mem hV) (a ++ [y]) x b (by rw [e, ← hsp]; simp)
      have := fit.level _ _ _ h1 h2
      simp [Svc.base, hk] at this
  · intro e h
    cases (he _ _).1 h with
    | bind => exact .inl ⟨_, rfl⟩
    | dial => exact .inr ⟨_, rfl⟩
  · intro t ht u hu
    have := (hn _ _).1 ht
    generalize hsp : x :: b = sp at this
    cases this with
    | @handler V hV hb =>
      rw [hH V hV hb] at hu
      simp only [parts, List.mem_filter, List.mem_map] at hu
      obtain ⟨⟨a, ha, rfl⟩, hv⟩ := hu
      left
      rw [hn]
      unfold App.argTree at hv ⊢
      cases hf : A.svcs.find? (fun U => U.name == a) with
      | none => simp [hf] at hv
      | some U =>
        have hU := List.mem_of_find?_eq_some hf
        have hna : U.name = a := by simpa using List.find?_some hf
        obtain ⟨str, hz⟩ := mem_zip _ _ (fit.args V (active_mem hV)).1 a ha
        have hc : A.Calls nodes V.home U := ⟨hU, .inr ⟨V, str, hV, rfl, by rw [hna]; exact hz⟩⟩
        cases hb : U.back with
        | false => exact .client hc hb
        | true =>
          have hr := (fit.backs U hU hb).1
          simp only [Svc.clientTree, Svc.calledTree, hb, hr, if_true]
          exact .grpcClient hc hr
    | @serverWrap V l1 l2 y hV hb e =>
      have : u = wrapOut l1 (H V) := by simpa [wrapOut, parts] using hu
      subst this
      exact .inl ((hn _ _).2 (hsp ▸ served V hV hsp.symm l1 (y :: l2) e))
    | @server V hV hr =>
      simp only [Svc.servedTree, hr, front V hV hsp.symm, Bool.false_eq_true, if_false, if_true, parts, List.mem_cons, List.not_mem_nil, or_false] at hu
      rcases hu with rfl | rfl
      · exact .inl ((hn _ _).2 (hsp ▸ served V hV hsp.symm (servers V.name V.wraps) [] (by simp)))
      · exact .inr ((he _ _).2 (hsp ▸ .bind (a := []) hV hr (by simpa using hsp.symm)))
    | @client V sp hV hb =>
      subst hsp
      simp only [Svc.clientTree, hb, Bool.false_eq_true, if_false, wrapIn, List.foldr_cons, parts, List.mem_singleton] at hu
      subst hu
      exact .inl ((hn _ _).2 (wrapped V hV hb [] _ rfl))
    | @clientWrap V sp l1 l2 y hV hb e =>
      subst hsp
      simp only [wrapIn, List.foldr_cons, parts, List.mem_singleton] at hu
      subst hu
      exact .inl ((hn _ _).2 (wrapped V hV hb (l1 ++ [y]) l2 (by rw [e]; simp)))
    | @grpcClient V sp hV hr =>
      subst hsp
      simp only [parts, List.mem_singleton] at hu
      subst hu
      exact .inr ((he _ _).2 (.dial (a := []) hV hr))
    | visibility => cases hsp
    | addr => cases hsp
    | bind => cases hsp
    | dial => cases hsp
    | space => simp [parts] at hu

end Verif.Live
