import Verif.Image.Spec
/-
C123: the image of a container.
-/
namespace Verif.Image
open Verif.Strings

private theorem lower_letter (c : Char) : isLower (lower c) = true ↔ Letter c := by
  have hn : ∀ a b : Char, (a ≤ b) ↔ a.toNat ≤ b.toNat := fun a b => by
    show a.val ≤ b.val ↔ a.val.toNat ≤ b.val.toNat
    exact UInt32.le_iff_toNat_le
  unfold Letter lower
  rw [hn, hn, hn, hn]
  by_cases hu : isUpper c = true
  · rw [if_pos hu]
    have : 'A'.toNat ≤ c.toNat ∧ c.toNat ≤ 'Z'.toNat := by simpa [isUpper] using hu
    have h1 : 'A'.toNat = 65 := rfl
    have h2 : 'Z'.toNat = 90 := rfl
    have h3 : (Char.ofNat (c.toNat + 32)).toNat = c.toNat + 32 := by
      have hv : (c.toNat + 32).isValidChar := by left; omega
      unfold Char.ofNat
      rw [dif_pos hv]; rfl
    constructor
    · intro _; exact .inr this
    · intro _
      simp only [isLower, Bool.and_eq_true, decide_eq_true_eq, h3]
      have h4 : 'a'.toNat = 97 := rfl
      have h5 : 'z'.toNat = 122 := rfl
      omega
  · rw [if_neg hu]
    have : ¬ ('A'.toNat ≤ c.toNat ∧ c.toNat ≤ 'Z'.toNat) := by simpa [isUpper] using hu
    simp only [isLower, Bool.and_eq_true, decide_eq_true_eq]
    constructor
    · exact .inl
    · rintro (h | h)
      · exact h
      · exact absurd h this

private theorem stage_char {d : Char} (h : IdentM d ∨ d = ' ') :
    (isLower (lower d) || isDigit (lower d) || lower d == '-' || lower d == '_' || lower d == '.') = true ↔ d ≠ ' ' := by
  constructor
  · rintro h1 rfl; exact absurd h1 (by decide)
  · intro hs
    rcases h with h | h
    · rcases h with h | h | h | rfl
      · have hn : isUpper d = false := by
          simp only [isLower, isUpper, Bool.and_eq_true, decide_eq_true_eq, Bool.and_eq_false_iff, decide_eq_false_iff_not] at h ⊢
          have h1 : 'a'.toNat = 97 := rfl
          have h2 : 'Z'.toNat = 90 := rfl
          omega
        have : lower d = d := by simp [lower, hn]
        simp [this, h]
      · have : isLower (lower d) = true := by
          rw [lower_letter]; right
          have := h
          simp only [isUpper, Bool.and_eq_true, decide_eq_true_eq] at this
          exact ⟨UInt32.le_iff_toNat_le.2 this.1, UInt32.le_iff_toNat_le.2 this.2⟩
        simp [this]
      · have hn : isUpper d = false := by
          simp only [isDigit, isUpper, Bool.and_eq_true, decide_eq_true_eq, Bool.and_eq_false_iff, decide_eq_false_iff_not] at h ⊢
          have h1 : '9'.toNat = 57 := rfl
          have h2 : 'A'.toNat = 65 := rfl
          omega
        have : lower d = d := by simp [lower, hn]
        simp [this, h]
      · decide
    · exact absurd h hs

private theorem stageName_some {n s : Str} (h : stageName n = some s) : s = n.map lower := by
  unfold stageName at h
  simp only at h
  split at h
  · cases h
  · split at h
    · rw [← Option.some.inj h]
    · cases h

private theorem stageName_iff (x : Str) : (∃ s, stageName (cleanName x) = some s) ↔
    ∃ c cs, cleanName x = c :: cs ∧ Letter c ∧ ' ' ∉ cs := by
  have hc := m_identifier_or_space x
  generalize cleanName x = n at hc ⊢
  cases n with
  | nil => simp [stageName]
  | cons c cs =>
    have hall : (cs.map lower).all (fun c => isLower c || isDigit c || c == '-' || c == '_' || c == '.') = true ↔ ' ' ∉ cs := by
      rw [List.all_map, List.all_eq_true]
      constructor
      · intro h hs
        exact absurd (h ' ' hs) (by decide)
      · intro h d hd
        exact (stage_char (hc d (by simp [hd]))).2 (fun e => h (e ▸ hd))
    simp only [stageName, List.map_cons]
    constructor
    · rintro ⟨s, h⟩
      split at h
      · rename_i hh
        rw [Bool.and_eq_true, lower_letter, hall] at hh
        exact ⟨c, cs, rfl, hh⟩
      · cases h
    · rintro ⟨c', cs', h, h1, h2⟩
      cases h
      refine ⟨_, if_pos ?_⟩
      rw [Bool.and_eq_true, lower_letter, hall]
      exact ⟨h1, h2⟩

/-! ### The workspace -/

private structure Inv (w : Workspace) (ps : List Proc) : Prop where
  visited : ∀ k, k ∈ w.visited ↔ ∃ p ∈ ps, k = p.name ++ ".artifacts".toList
  files : ∀ p ∈ ps, ∀ q, w.files (cleanName p.name :: q) = p.files q
  others : ∀ e q, (∀ p ∈ ps, e ≠ cleanName p.name) → w.files (e :: q) = none
  dirs : ∀ d ∈ w.procDirs, ∃ p ∈ ps, d = cleanName p.name
  custom : ∀ x, x ∈ w.custom ↔ ∃ p ∈ ps, x = (cleanName p.name, goprocCmds (cleanName p.name))

private theorem mem_put {n : Str} {c : List Cmd} {l : List (Str × List Cmd)} (h : ∀ y ∈ l, y.1 ≠ n) (x : Str × List Cmd) :
    x ∈ putCustom n c l ↔ x = (n, c) ∨ x ∈ l := by
  induction l with
  | nil => simp [putCustom]
  | cons y l ih =>
    rw [putCustom, if_neg (h y (by simp))]
    have ih := ih fun z hz => h z (by simp [hz])
    split
    · simp
    · simp only [List.mem_cons, ih]
      constructor
      · rintro (h | h | h)
        · exact .inr (.inl h)
        · exact .inl h
        · exact .inr (.inr h)
      · rintro (h | h | h)
        · exact .inr (.inl h)
        · exact .inl h
        · exact .inr (.inr h)

private theorem inv_add {w : Workspace} {ps : List Proc} (h : Inv w ps) (p : Proc)
    (hne : ∀ q ∈ ps, cleanName q.name ≠ cleanName p.name) : Inv (w.addProc p) (ps ++ [p]) := by
  have hk : p.name ++ ".artifacts".toList ∉ w.visited := by
    rw [h.visited]
    rintro ⟨q, hq, he⟩
    exact hne q hq (by rw [List.append_cancel_right he])
  unfold Workspace.addProc
  simp only
  rw [if_neg hk, C23_idempotent]
  refine ⟨?_, ?_, ?_, ?_, ?_⟩
  · intro k
    simp only [List.mem_cons, h.visited, List.mem_append]
    constructor
    · rintro (rfl | ⟨q, hq, rfl⟩)
      · exact ⟨p, by simp, rfl⟩
      · exact ⟨q, .inl hq, rfl⟩
    · rintro ⟨q, hq | hq, rfl⟩
      · exact .inr ⟨q, hq, rfl⟩
      · simp at hq; subst hq; exact .inl rfl
  · intro q hq r
    simp only [writeBelow]
    rcases List.mem_append.1 hq with hq | hq
    · rw [if_neg (hne q hq)]; exact h.files q hq r
    · simp only [List.mem_singleton] at hq; subst hq
      rw [if_pos rfl]
      cases hf : q.files r with
      | some n => rfl
      | none => exact h.others _ _ fun x hx => (hne x hx).symm
  · intro e q he
    simp only [writeBelow]
    rw [if_neg (he p (by simp))]
    exact h.others e q fun x hx => he x (by simp [hx])
  · intro d hd
    simp only at hd
    have : d ∈ w.procDirs ∨ d = cleanName p.name := by
      split at hd
      · exact .inl hd
      · rcases List.mem_cons.1 hd with h | h
        · exact .inr h
        · exact .inl h
    rcases this with hd | rfl
    · obtain ⟨q, hq, rfl⟩ := h.dirs d hd
      exact ⟨q, by simp [hq], rfl⟩
    · exact ⟨p, by simp, rfl⟩
  · intro x
    have : ∀ y ∈ w.custom, y.1 ≠ cleanName p.name := by
      intro y hy
      obtain ⟨q, hq, rfl⟩ := (h.custom y).1 hy
      exact hne q hq
    simp only
    rw [mem_put this, h.custom]
    constructor
    · rintro (rfl | ⟨q, hq, rfl⟩)
      · exact ⟨p, by simp, rfl⟩
      · exact ⟨q, by simp [hq], rfl⟩
    · rintro ⟨q, hq, rfl⟩
      rcases List.mem_append.1 hq with hq | hq
      · exact .inr ⟨q, hq, rfl⟩
      · simp only [List.mem_singleton] at hq; subst hq; exact .inl rfl

private theorem inv_all (ps : List Proc) (h : Different ps) : Inv (Workspace.new.addProcs ps) ps := by
  suffices ∀ (ps done : List Proc) (w : Workspace), Inv w done → Different (done ++ ps) → Inv (w.addProcs ps) (done ++ ps) by
    exact this ps [] _ ⟨by simp [Workspace.new], by simp, by simp [Workspace.new], by simp [Workspace.new], by simp [Workspace.new]⟩ h
  intro ps
  induction ps with
  | nil => intro done w hi _; simpa [Workspace.addProcs] using hi
  | cons p ps ih =>
    intro done w hi hd
    have e : done ++ p :: ps = (done ++ [p]) ++ ps := by simp
    rw [e]
    refine ih (done ++ [p]) (w.addProc p) (inv_add hi p ?_) (by rwa [e] at hd)
    intro q hq he
    unfold Different at hd
    rw [List.map_append, List.nodup_append] at hd
    exact hd.2.2 _ (List.mem_map.2 ⟨q, hq, rfl⟩) _ (List.mem_map.2 ⟨p, by simp, rfl⟩) (by rw [he])

private theorem clean_no_dot (x : Str) : '.' ∉ cleanName x := by
  intro h
  rcases m_identifier_or_space x '.' h with h | h
  · rcases h with h | h | h | h
    · exact absurd h (by decide)
    · exact absurd h (by decide)
    · exact absurd h (by decide)
    · exact absurd h (by decide)
  · exact absurd h (by decide)

private theorem clean_ne_build (x : Str) : cleanName x ≠ buildSh := fun h => clean_no_dot x (by rw [h]; decide)
private theorem clean_ne_run (x : Str) : cleanName x ≠ runSh := fun h => clean_no_dot x (by rw [h]; decide)

/-- What is in the image's directory. -/
private theorem context_files {w : Workspace} {ps : List Proc} (h : Inv w ps) (b r : Nat) :
    (∀ p ∈ ps, ∀ q, w.finish b r (cleanName p.name :: q) = p.files q) ∧
    w.finish b r [buildSh] = some (.file b) ∧ w.finish b r [runSh] = some (.file r) ∧
    (∀ q, q ≠ [] → w.finish b r (buildSh :: q) = none) ∧ (∀ q, q ≠ [] → w.finish b r (runSh :: q) = none) := by
  have hbr : buildSh ≠ runSh := by decide
  refine ⟨?_, ?_, ?_, ?_, ?_⟩
  · intro p hp q
    unfold Workspace.finish FS.set
    rw [if_neg (fun h => clean_ne_run _ (List.cons.inj h).1), if_neg (fun h => clean_ne_build _ (List.cons.inj h).1)]
    exact h.files p hp q
  · unfold Workspace.finish FS.set
    rw [if_neg (by simp [hbr]), if_pos rfl]
  · unfold Workspace.finish FS.set
    rw [if_pos rfl]
  · intro q hq
    unfold Workspace.finish FS.set
    rw [if_neg (by simp [hbr]), if_neg (by simp [hq])]
    exact h.others _ _ fun p _ => (clean_ne_build _).symm
  · intro q hq
    unfold Workspace.finish FS.set
    rw [if_neg (by simp [hq]), if_neg (by simp [hbr.symm])]
    exact h.others _ _ fun p _ => (clean_ne_run _).symm

/-! ### The stages -/

private theorem copy_some {origin : FS} {a b : Str} {fs fs' : FS} (h : copy origin [a] [b] fs = some fs') :
    fs' [] = fs [] ∧ ∀ e q, fs' (e :: q) = if e = b then (match origin (a :: q) with | some n => some n | none => fs (e :: q)) else fs (e :: q) := by
  unfold copy at h
  cases ho : origin [a] with
  | none => rw [ho] at h; cases h
  | some n =>
    rw [ho] at h
    have := Option.some.inj h
    subst this
    refine ⟨by simp [List.isPrefixOf], fun e q => ?_⟩
    by_cases he : e = b
    · subst he
      simp only [List.isPrefixOf, BEq.rfl, Bool.true_and, if_true, List.length_cons, List.length_nil, List.drop_succ_cons, List.drop_zero, List.singleton_append]
      cases origin (a :: q) <;> rfl
    · have : ([b].isPrefixOf (e :: q)) = false := by simp [List.isPrefixOf, Ne.symm he]
      simp [this, he]

private theorem copy_iff {origin : FS} {a b : Str} {fs : FS} : (∃ fs', copy origin [a] [b] fs = some fs') ↔ origin [a] ≠ none := by
  unfold copy
  cases origin [a] <;> simp

/-- The stage of one process. -/
private theorem stage_iff (env : Env) (ctx : FS) (p : Proc) (hgo : ∀ q, env.golang (src :: q) = none)
    (hf : p.files [] = some .dir) (hc : ∀ q, ctx (cleanName p.name :: q) = p.files q) (st : FS) :
    runCmds env ctx env.golang (goprocCmds (cleanName p.name)) = some st ↔
      env.golang [cleanName p.name] = none ∧ cleanName p.name ≠ src ∧ ∃ b, env.compile p.files (cleanName p.name) = some b ∧
        st = fun q => if q = [cleanName p.name, cleanName p.name] then some (.file b) else if q = [cleanName p.name] then some .dir
          else match q with
            | [] => env.golang []
            | e :: r => if e = src then p.files r else env.golang (e :: r) := by
  generalize cleanName p.name = n at hc
  obtain ⟨fs1, h1⟩ := (copy_iff (b := src) (fs := env.golang)).2 (show ctx [n] ≠ none by rw [hc, hf]; simp)
  obtain ⟨e0, e1⟩ := copy_some h1
  have e2 : ∀ e r, fs1 (e :: r) = if e = src then p.files r else env.golang (e :: r) := by
    intro e r
    rw [e1]
    by_cases he : e = src
    · rw [if_pos he, if_pos he, hc]
      cases hp : p.files r with
      | some x => rfl
      | none => rw [he, hgo]
    · rw [if_neg he, if_neg he]
  have efs : fs1 = fun q => match q with
      | [] => env.golang []
      | e :: r => if e = src then p.files r else env.golang (e :: r) := by
    funext q
    cases q with
    | nil => exact e0
    | cons e r => exact e2 e r
  simp only [goprocCmds, runCmds, runCmd, h1]
  by_cases hs : n = src
  · have : fs1 [n] ≠ none := by rw [e2, if_pos hs, hf]; simp
    rw [if_neg this]
    simp [hs]
  · have hn : fs1 [n] = env.golang [n] := by rw [e2, if_neg hs]
    rw [hn]
    by_cases hg : env.golang [n] = none
    · rw [if_pos hg]
      simp only
      have hsrc : (fun q => fs1.set [n] .dir (src :: q)) = p.files := by
        funext q
        unfold FS.set
        rw [if_neg (by intro h; exact hs (List.cons.inj h).1.symm), e2, if_pos rfl]
      rw [hsrc]
      cases hcm : env.compile p.files n with
      | none => simp
      | some b =>
        simp only [Option.some.injEq]
        constructor
        · rintro rfl
          exact ⟨hg, hs, b, rfl, by funext q; simp only [FS.set, efs]; cases q <;> rfl⟩
        · rintro ⟨-, -, b', hb', rfl⟩
          cases hb'
          funext q
          simp only [FS.set, efs]
          cases q <;> rfl
    · rw [if_neg hg]
      simp [hg]

private theorem runStages_iff (env : Env) (ctx : FS) (l : List (Str × List Cmd)) :
    ((∃ st, runStages env ctx l = some st) ↔
      ∀ x ∈ l, (∃ s, stageName x.1 = some s) ∧ ∃ fs, runCmds env ctx env.golang x.2 = some fs) ∧
    ∀ st, runStages env ctx l = some st → ∀ y, y ∈ st ↔ ∃ x ∈ l, y.1 = x.1.map lower ∧ runCmds env ctx env.golang x.2 = some y.2 := by
  induction l with
  | nil => simp [runStages]
  | cons x l ih =>
    obtain ⟨n, cs⟩ := x
    rw [runStages]
    cases h1 : stageName n with
    | none => simp [h1]
    | some s =>
      cases h2 : runCmds env ctx env.golang cs with
      | none => simp [h2]
      | some fs =>
        simp only
        have hs := stageName_some h1
        cases h3 : runStages env ctx l with
        | none =>
          simp only
          refine ⟨?_, by simp⟩
          constructor
          · rintro ⟨_, h⟩; cases h
          · intro h
            have := ih.1.2 fun x hx => h x (by simp [hx])
            rw [h3] at this; simp at this
        | some rest =>
          simp only
          refine ⟨⟨fun _ x hx => ?_, fun _ => ⟨_, rfl⟩⟩, ?_⟩
          · rcases List.mem_cons.1 hx with rfl | hx
            · exact ⟨⟨s, h1⟩, fs, h2⟩
            · exact ih.1.1 ⟨rest, h3⟩ x hx
          · intro st hst y
            cases hst
            rw [List.mem_cons, ih.2 rest h3]
            constructor
            · rintro (rfl | ⟨x, hx, h⟩)
              · exact ⟨_, List.mem_cons_self .., hs, h2⟩
              · exact ⟨x, by simp [hx], h⟩
            · rintro ⟨x, hx, h4, h5⟩
              rcases List.mem_cons.1 hx with rfl | hx
              · left
                rw [h2] at h5
                exact Prod.ext (h4.trans hs.symm) (Option.some.inj h5).symm
              · exact .inr ⟨x, hx, h4, h5⟩

private theorem copyCustom_spec (stages : List (Str × FS)) (l : List Str) : ∀ fs : FS,
    (∀ n ∈ l, ∃ st, findStage stages n = some st ∧ st [n] ≠ none) →
    ∃ fs', copyCustom stages fs l = some fs' ∧ fs' [] = fs [] ∧ ∀ e q, fs' (e :: q) =
      if e ∈ l then (match (findStage stages e).bind (fun st => st (e :: q)) with | some n => some n | none => fs (e :: q)) else fs (e :: q) := by
  induction l with
  | nil => intro fs _; exact ⟨fs, rfl, rfl, by simp⟩
  | cons n l ih =>
    intro fs h
    obtain ⟨st, h1, h2⟩ := h n (by simp)
    obtain ⟨fs1, h3⟩ := (copy_iff (b := n) (fs := fs)).2 h2
    obtain ⟨c0, c1⟩ := copy_some h3
    obtain ⟨fs2, h4, h5, h6⟩ := ih fs1 fun m hm => h m (by simp [hm])
    refine ⟨fs2, by simp only [copyCustom, h1, h3, h4], by rw [h5, c0], fun e q => ?_⟩
    rw [h6, c1]
    by_cases he : e = n
    · subst he
      rw [if_pos rfl, if_pos (List.mem_cons_self ..), h1]
      simp only [Option.bind_some]
      split
      · cases st (e :: q) <;> rfl
      · rfl
    · rw [if_neg he]
      by_cases hm : e ∈ l
      · rw [if_pos hm, if_pos (by simp [hm])]
      · rw [if_neg hm, if_neg (by simp [hm, he])]

private theorem findStage_spec {stages : List (Str × FS)} {n : Str} {fs : FS} (hm : (n.map lower, fs) ∈ stages)
    (hu : ∀ y ∈ stages, y.1 = n.map lower → y.2 = fs) : findStage stages n = some fs := by
  unfold findStage
  cases hf : stages.reverse.find? (fun x => x.1 == n.map lower) with
  | none =>
    rw [List.find?_eq_none] at hf
    exact absurd (hf (n.map lower, fs) (by simpa using hm)) (by simp)
  | some y =>
    have h1 := List.mem_of_find?_eq_some hf
    have h2 := List.find?_some hf
    simp only [beq_iff_eq] at h2
    simp [hu y (by simpa using h1) h2]

private theorem different_eq {ps : List Proc} (h : Different ps) {p q : Proc} (hp : p ∈ ps) (hq : q ∈ ps)
    (he : (cleanName p.name).map lower = (cleanName q.name).map lower) : p = q := by
  obtain ⟨i, hi⟩ := List.mem_iff_getElem?.1 hp
  obtain ⟨j, hj⟩ := List.mem_iff_getElem?.1 hq
  have hi' : (ps.map fun p => (cleanName p.name).map lower)[i]? = some ((cleanName p.name).map lower) := by simp [hi]
  have hj' : (ps.map fun p => (cleanName p.name).map lower)[j]? = some ((cleanName p.name).map lower) := by simp [hj, he]
  have hl : i < (ps.map fun p => (cleanName p.name).map lower).length := (List.getElem?_eq_some_iff.1 hi').1
  have : i = j := (List.getElem?_inj hl h).1 (hi'.trans hj'.symm)
  subst this; rw [hi] at hj; exact Option.some.inj hj

private theorem build_spec (env : Env) (ps : List Proc) (hd : Different ps) (hgo : ∀ q, env.golang (src :: q) = none)
    (hf : ∀ p ∈ ps, p.files [] = some .dir) (b r : Nat) (effect : FS → FS) :
    ((∃ img, buildImage env (Workspace.new.addProcs ps) b r effect = some img) ↔ ∀ p ∈ ps, Buildable env p) ∧
    ((∀ p ∈ ps, Buildable env p) → ∃ fs : FS,
      buildImage env (Workspace.new.addProcs ps) b r effect = copy ((Workspace.new.addProcs ps).finish b r) [runSh] [runSh] (effect fs) ∧
      (∀ p ∈ ps, ∀ c, env.compile p.files (cleanName p.name) = some c →
        fs [cleanName p.name, cleanName p.name] = some (.file c) ∧ fs [cleanName p.name] = some .dir ∧
        ∀ q, q ≠ [] → q ≠ [cleanName p.name] → env.golang (cleanName p.name :: q) = none → 
          cleanName p.name :: q ≠ ["bin".toList, "sh".toList] → fs (cleanName p.name :: q) = env.base (cleanName p.name :: q)) ∧
      fs ["bin".toList, "sh".toList] = some (.file env.sh) ∧ fs [buildSh] = some (.file b) ∧ fs [] = env.base [] ∧
      ∀ e q, (∀ p ∈ ps, e ≠ cleanName p.name) → e :: q ≠ ["bin".toList, "sh".toList] → e :: q ≠ [buildSh] → fs (e :: q) = env.base (e :: q)) := by
  have hi := inv_all ps hd
  generalize Workspace.new.addProcs ps = w at hi ⊢
  obtain ⟨k1, k2, k3, k4, k5⟩ := context_files hi b r
  generalize hctx : w.finish b r = ctx at *
  have hst := fun p (hp : p ∈ ps) => stage_iff env ctx p hgo (hf p hp) (k1 p hp)
  have hbuild : (∃ st, runStages env ctx w.custom = some st) ↔ ∀ p ∈ ps, Buildable env p := by
    rw [(runStages_iff env ctx w.custom).1]
    constructor
    · intro h p hp
      obtain ⟨h1, st, h2⟩ := h _ ((hi.custom _).2 ⟨p, hp, rfl⟩)
      obtain ⟨h3, h4, c, h5, -⟩ := (hst p hp st).1 h2
      exact ⟨(stageName_iff _).1 h1, h3, h4, c, h5⟩
    · intro h x hx
      obtain ⟨p, hp, rfl⟩ := (hi.custom x).1 hx
      obtain ⟨h1, h2, h3, c, h4⟩ := h p hp
      exact ⟨(stageName_iff _).2 h1, _, (hst p hp _).2 ⟨h2, h3, c, h4, rfl⟩⟩
  have hdef : w.defaults = [] := by
    unfold Workspace.defaults
    rw [List.filter_eq_nil_iff]
    intro d hd'
    obtain ⟨p, hp, rfl⟩ := hi.dirs d hd'
    simp only [decide_eq_true_eq, Classical.not_not]
    exact List.mem_map.2 ⟨_, (hi.custom _).2 ⟨p, hp, rfl⟩, rfl⟩
  have key : (∀ p ∈ ps, Buildable env p) → ∃ fs : FS,
      buildImage env w b r effect = copy ctx [runSh] [runSh] (effect fs) ∧
      (∀ p ∈ ps, ∀ c, env.compile p.files (cleanName p.name) = some c →
        fs [cleanName p.name, cleanName p.name] = some (.file c) ∧ fs [cleanName p.name] = some .dir ∧
        ∀ q, q ≠ [] → q ≠ [cleanName p.name] → env.golang (cleanName p.name :: q) = none →
          cleanName p.name :: q ≠ ["bin".toList, "sh".toList] → fs (cleanName p.name :: q) = env.base (cleanName p.name :: q)) ∧
      fs ["bin".toList, "sh".toList] = some (.file env.sh) ∧ fs [buildSh] = some (.file b) ∧ fs [] = env.base [] ∧
      ∀ e q, (∀ p ∈ ps, e ≠ cleanName p.name) → e :: q ≠ ["bin".toList, "sh".toList] → e :: q ≠ [buildSh] → fs (e :: q) = env.base (e :: q) := by
    intro hall
    obtain ⟨stages, hs⟩ := hbuild.2 hall
    have hmem := (runStages_iff env ctx w.custom).2 stages hs
    have hfind : ∀ p ∈ ps, ∀ c, env.compile p.files (cleanName p.name) = some c →
        findStage stages (cleanName p.name) = some (fun q => if q = [cleanName p.name, cleanName p.name] then some (.file c)
          else if q = [cleanName p.name] then some .dir
          else match q with
            | [] => env.golang []
            | e :: r => if e = src then p.files r else env.golang (e :: r)) := by
      intro p hp c hc
      obtain ⟨h1, h2, h3, c', h4⟩ := hall p hp
      refine findStage_spec ((hmem _).2 ⟨_, (hi.custom _).2 ⟨p, hp, rfl⟩, rfl, (hst p hp _).2 ⟨h2, h3, c, hc, rfl⟩⟩) ?_
      intro y hy he
      obtain ⟨x, hx, h5, h6⟩ := (hmem y).1 hy
      obtain ⟨p', hp', rfl⟩ := (hi.custom x).1 hx
      have : p' = p := different_eq hd hp' hp (by rw [← he, h5])
      subst this
      obtain ⟨-, -, c2, h7, h8⟩ := (hst p' hp' _).1 h6
      rw [hc] at h7; cases h7
      exact h8
    have hkeys : ∀ e, e ∈ w.custom.map (·.1) ↔ ∃ p ∈ ps, e = cleanName p.name := by
      intro e
      rw [List.mem_map]
      constructor
      · rintro ⟨x, hx, rfl⟩
        obtain ⟨p, hp, rfl⟩ := (hi.custom x).1 hx
        exact ⟨p, hp, rfl⟩
      · rintro ⟨p, hp, rfl⟩; exact ⟨_, (hi.custom _).2 ⟨p, hp, rfl⟩, rfl⟩
    obtain ⟨fs1, c1, c2, c3⟩ := copyCustom_spec stages (w.custom.map (·.1)) env.base (by
      intro n hn
      obtain ⟨p, hp, rfl⟩ := (hkeys n).1 hn
      obtain ⟨-, -, -, c, h4⟩ := hall p hp
      exact ⟨_, hfind p hp c h4, by simp⟩)
    obtain ⟨fs2, d1⟩ := (copy_iff (origin := ctx) (a := buildSh) (b := buildSh) (fs := fs1.set ["bin".toList, "sh".toList] (.file env.sh))).2
      (by rw [k2]; simp)
    obtain ⟨d2, d3⟩ := copy_some d1
    have hbin : "bin".toList ≠ buildSh := by decide
    have d4 : ∀ e q, e :: q ≠ [buildSh] → fs2 (e :: q) = fs1.set ["bin".toList, "sh".toList] (.file env.sh) (e :: q) := by
      intro e q hne
      rw [d3]
      by_cases he : e = buildSh
      · subst he
        rw [if_pos rfl, k4 q (fun h => hne (by rw [h]))]
      · rw [if_neg he]
    refine ⟨fs2, ?_, ?_, ?_, ?_, ?_, ?_⟩
    · simp only [buildImage, hctx, hs, hdef, copyDefaults, c1, d1]
    · intro p hp c hc
      have hin := (hkeys _).2 ⟨p, hp, rfl⟩
      have hget : ∀ q, cleanName p.name :: q ≠ ["bin".toList, "sh".toList] → fs2 (cleanName p.name :: q) = fs1 (cleanName p.name :: q) := by
        intro q hq
        rw [d4 _ _ (fun h => clean_ne_build _ (List.cons.inj h).1)]
        unfold FS.set
        rw [if_neg hq]
      have hne : [cleanName p.name, cleanName p.name] ≠ ["bin".toList, "sh".toList] := by
        intro h
        have h1 := (List.cons.inj h).1
        have h2 := (List.cons.inj (List.cons.inj h).2).1
        rw [h1] at h2; exact absurd h2 (by decide)
      refine ⟨?_, ?_, ?_⟩
      · rw [hget _ hne, c3, if_pos hin, hfind p hp c hc]
        simp
      · rw [hget _ (by simp), c3, if_pos hin, hfind p hp c hc]
        simp
      · intro q hq1 hq2 hg hq3
        rw [hget _ hq3, c3, if_pos hin, hfind p hp c hc]
        have hns := (hall p hp).notSrc
        have e1 : ¬ cleanName p.name :: q = [cleanName p.name, cleanName p.name] := by simp [hq2]
        have e2 : ¬ cleanName p.name :: q = [cleanName p.name] := by simp [hq1]
        have e3 : ¬ cleanName p.name = src := hns
        simp [e1, e2, e3, hg, hq1, hq2]
    · rw [d4 _ _ (by simp)]
      unfold FS.set; rw [if_pos rfl]
    · rw [d3, if_pos rfl, k2]
    · rw [d2]; unfold FS.set; rw [if_neg (by simp), c2]
    · intro e q he h1 h2
      rw [d4 e q h2]
      unfold FS.set
      rw [if_neg h1, c3, if_neg]
      rw [hkeys]; rintro ⟨p, hp, h⟩; exact he p hp h
  refine ⟨⟨?_, ?_⟩, key⟩
  · rintro ⟨img, h⟩
    rw [← hbuild]
    simp only [buildImage, hctx] at h
    cases hs : runStages env ctx w.custom with
    | none => rw [hs] at h; cases h
    | some st => exact ⟨st, rfl⟩
  · intro h
    obtain ⟨fs, h1, -⟩ := key h
    rw [h1]
    exact copy_iff.2 (by rw [k3]; simp)

/-- C123: `docker build` of a container whose processes have different names succeeds exactly when each process can be
built: its name can be a stage's name and is not that of a directory of the Go image or `src`, and its code compiles.
What `build.sh` does plays no part.  Base images have nothing in `/src`, and each process has written its directory. -/
theorem C123_built_iff (env : Env) (ps : List Proc) (hd : Different ps) (hgo : ∀ q, env.golang ("src".toList :: q) = none)
    (hf : ∀ p ∈ ps, p.files [] = some .dir) (build run : Nat) (effect : FS → FS) :
    (∃ img, buildImage env (Workspace.new.addProcs ps) build run effect = some img) ↔ ∀ p ∈ ps, Buildable env p :=
  (build_spec env ps hd hgo hf build run effect).1

/-- C123: in the image, at the path at which `run.sh` starts a process, there is the binary compiled from that process's
own files.  Besides these, the shell and the two scripts, the image is the base image: the processes' files are not in it.
Full property: also for processes whose names differ only in other characters than letters and digits, or in upper and lower
case (`C123_same_directory_refuted`), and for every name (`C123_reserved_refuted`).  An empty `build.sh` changes nothing. -/
theorem C123_image_partial (env : Env) (ps : List Proc) (hd : Different ps) (hgo : ∀ q, env.golang ("src".toList :: q) = none)
    (hf : ∀ p ∈ ps, p.files [] = some .dir) (build run : Nat) (img : FS)
    (h : buildImage env (Workspace.new.addProcs ps) build run id = some img) :
    (∀ p ∈ ps, ∃ c, env.compile p.files (cleanName p.name) = some c ∧ img (started p) = some (.file c) ∧
      ∀ q, q ≠ [] → q ≠ [cleanName p.name] → env.golang (cleanName p.name :: q) = none →
        cleanName p.name :: q ≠ ["bin".toList, "sh".toList] → img (cleanName p.name :: q) = env.base (cleanName p.name :: q)) ∧
    img ["bin".toList, "sh".toList] = some (.file env.sh) ∧ img ["build.sh".toList] = some (.file build) ∧
    img ["run.sh".toList] = some (.file run) ∧
    ∀ e q, (∀ p ∈ ps, e ≠ cleanName p.name) → e :: q ≠ ["bin".toList, "sh".toList] → e :: q ≠ ["build.sh".toList] →
      e :: q ≠ ["run.sh".toList] → img (e :: q) = env.base (e :: q) := by
  have hs := build_spec env ps hd hgo hf build run id
  have hall := hs.1.1 ⟨img, h⟩
  obtain ⟨fs, h1, h2, h3, h4, h5, h6⟩ := hs.2 hall
  rw [h] at h1
  obtain ⟨k1, k2, k3, k4, k5⟩ := context_files (inv_all ps hd) build run
  obtain ⟨e1, e2⟩ := copy_some h1.symm
  simp only [id] at e1 e2
  have e3 : ∀ e q, e :: q ≠ [runSh] → img (e :: q) = fs (e :: q) := by
    intro e q hne
    rw [e2]
    by_cases he : e = runSh
    · subst he; rw [if_pos rfl, k5 q (fun h => hne (by rw [h]))]
    · rw [if_neg he]
  refine ⟨?_, ?_, ?_, ?_, ?_⟩
  · intro p hp
    obtain ⟨c, hc⟩ := (hall p hp).compiles
    obtain ⟨a1, a2, a3⟩ := h2 p hp c hc
    have hr : ∀ q, img (cleanName p.name :: q) = fs (cleanName p.name :: q) := fun q =>
      e3 _ _ fun h => clean_ne_run _ (List.cons.inj h).1
    refine ⟨c, hc, by rw [started, hr]; exact a1, ?_⟩
    intro q q1 q2 q3 q4
    rw [hr]; exact a3 q q1 q2 q3 q4
  · rw [e3 _ _ (by simp)]; exact h3
  · exact (e3 _ _ (by decide)).trans h4
  · exact (e2 runSh []).trans (by rw [if_pos rfl, k3])
  · intro e q he n1 n2 n3
    rw [e3 _ _ n3]; exact h6 e q he n1 n2

/-- C123, disagreement: a container with a process called `src`, or like a directory in the root of the Go image (`go`, `bin`, `tmp`,
`proc`, …), or with a name that begins with `_` or contains a space, cannot be built, whatever its code is. -/
theorem C123_reserved_refuted (env : Env) (ps : List Proc) (hd : Different ps) (hgo : ∀ q, env.golang ("src".toList :: q) = none)
    (hf : ∀ p ∈ ps, p.files [] = some .dir) (build run : Nat) (effect : FS → FS) (p : Proc) (hp : p ∈ ps)
    (hn : p.name = "src".toList ∨ env.golang [p.name] = some .dir ∧ cleanName p.name = p.name ∨ (∃ n, p.name = '_' :: n) ∨
      cleanName p.name = p.name ∧ ' ' ∈ p.name) :
    buildImage env (Workspace.new.addProcs ps) build run effect = none := by
  cases h : buildImage env (Workspace.new.addProcs ps) build run effect with
  | none => rfl
  | some img =>
    exfalso
    have hb := (C123_built_iff env ps hd hgo hf build run effect).1 ⟨img, h⟩ p hp
    rcases hn with hn | ⟨h1, h2⟩ | ⟨n, hn⟩ | ⟨h1, h2⟩
    · exact hb.notSrc (by rw [hn]; decide)
    · have := hb.fresh
      rw [h2, h1] at this; cases this
    · obtain ⟨c, cs, h1, h2, -⟩ := hb.letter
      have : cleanName p.name = '_' :: collapse true n := by rw [hn]; simp [cleanName, collapse, kept, isLower, isUpper, isDigit, stripDigits]
      rw [this] at h1
      have hc : c = '_' := (List.cons.inj h1).1.symm
      subst hc
      exact absurd ((lower_letter '_').2 h2) (by decide)
    · obtain ⟨c, cs, h3, h4, h5⟩ := hb.letter
      rw [h1] at h3
      rw [h3] at h2
      rcases List.mem_cons.1 h2 with h | h
      · subst h; exact absurd ((lower_letter ' ').2 h4) (by decide)
      · exact h5 h

/-! ### Concrete cases -/

/-- A directory with a file `main.go`. -/
def exFiles (content : Nat) : FS := fun p =>
  if p = [] then some .dir else if p = ["main.go".toList] then some (.file content) else none

def exEnv : Env where
  golang := fun p => if p = [] ∨ p = ["go".toList] then some .dir else none
  base := fun p => if p = [] ∨ p = ["etc".toList] then some .dir else none
  sh := 99
  compile := fun fs _ => match fs ["main.go".toList] with
    | some (.file c) => if c = 0 then none else some (c + 1000)
    | _ => none

def exUser : Proc := ⟨"user.proc".toList, exFiles 7⟩
def exCart : Proc := ⟨"cart_proc".toList, exFiles 8⟩

example : Different [exUser, exCart] := by unfold Different; decide +kernel
example : ∀ p ∈ [exUser, exCart], p.files [] = some .dir := by
  intro p hp; simp only [List.mem_cons, List.not_mem_nil, or_false] at hp; rcases hp with rfl | rfl <;> rfl
example : ∀ q, exEnv.golang ("src".toList :: q) = none := by intro q; simp [exEnv]

/-- The image of the two processes. -/
example : ∃ img, buildImage exEnv (Workspace.new.addProcs [exUser, exCart]) 1 2 id = some img ∧
    img ["user_proc".toList, "user_proc".toList] = some (.file 1007) ∧ img ["cart_proc".toList, "cart_proc".toList] = some (.file 1008) ∧
    img ["user_proc".toList, "main.go".toList] = none := by
  refine ⟨_, rfl, ?_, ?_, ?_⟩ <;> decide +kernel

/-- C123, disagreement: of two processes whose names have the same clean name, only the one that was added last is in the
image, and `run.sh` starts it in place of the other. -/
theorem C123_same_directory_refuted : ∃ (env : Env) (p q : Proc) (img : FS), p.name ≠ q.name ∧ Buildable env p ∧ Buildable env q ∧
    buildImage env (Workspace.new.addProcs [p, q]) 1 2 id = some img ∧ started p = started q ∧
    img (started p) = (env.compile q.files (cleanName q.name)).map .file ∧
    env.compile p.files (cleanName p.name) ≠ env.compile q.files (cleanName q.name) := by
  refine ⟨exEnv, ⟨"user.proc".toList, exFiles 7⟩, ⟨"user_proc".toList, exFiles 8⟩, _, by decide +kernel, ?_, ?_, rfl, by decide +kernel,
    by decide +kernel, by decide +kernel⟩
  · exact ⟨⟨'u', "ser_proc".toList, by decide +kernel, (lower_letter 'u').1 (by decide), by decide +kernel⟩, by decide +kernel, by decide +kernel,
      ⟨1007, by decide +kernel⟩⟩
  · exact ⟨⟨'u', "ser_proc".toList, by decide +kernel, (lower_letter 'u').1 (by decide), by decide +kernel⟩, by decide +kernel, by decide +kernel,
      ⟨1008, by decide +kernel⟩⟩

end Verif.Image
