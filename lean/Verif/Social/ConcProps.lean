import Verif.Social.Conc
import Verif.Social.Props
import Verif.Interleave.Props
/-
C125: the social network when several things happen at the same time.
-/
namespace Verif.Social
open Verif.Interleave

/-! ### The goroutines of one method -/

/-- The parts of the store that the goroutines of `ComposePost` work on. -/
private inductive Part where
  | posts | timelines | rest
deriving DecidableEq

private def samePart : Part → Net → Net → Prop
  | .posts, n, m => n.posts = m.posts
  | .timelines, n, m => n.timelines = m.timelines
  | .rest, n, m => n.graph = m.graph ∧ n.home = m.home

private theorem pushHome_within (post : Id) (us : List Id) : Within samePart Part.rest (pushHome post us) := by
  induction us with
  | nil => exact .done
  | cons u us ih =>
    refine .act (fun s s' h => ⟨h, ?_⟩) (fun q hq s => ?_) fun s => .act (fun a b h => ⟨?_, rfl⟩) (fun q hq s => ?_) fun _ => ih
    · rw [h.2]
    · cases q <;> simp [samePart]
    · simp only [samePart] at h ⊢; rw [h.2]; exact ⟨h.1, rfl⟩
    · cases q <;> simp_all [samePart]

private theorem pushHome_run (post : Id) (us : List Id) (hn : us.Nodup) : ∀ n : Net,
    (pushHome post us).run n = ({ n with home := n.home.append post us }, true) := by
  induction us with
  | nil =>
    intro n
    have e : n.home.append post [] = n.home := by funext x; simp [Map.append]
    rw [e]; rfl
  | cons u us ih =>
    intro n
    obtain ⟨h1, h2⟩ := List.nodup_cons.1 hn
    simp only [pushHome, look, change, Prog.run, id]
    rw [ih h2]
    congr 2
    funext x
    simp only [Map.append, Map.put, List.contains_cons]
    by_cases hx : x = u
    · subst hx
      simp [h1]
    · simp [hx]

private theorem append_congr (m : Map (List Id)) (post : Id) {a b : List Id} (h : ∀ x, x ∈ a ↔ x ∈ b) : m.append post a = m.append post b := by
  funext x
  unfold Map.append
  have : a.contains x = b.contains x := by
    rw [Bool.eq_iff_iff]; simp [h]
  rw [this]

private theorem home_run (order : List Id → List Id) (ho : Visits order) (post author : Id) (ms : List Id) (n : Net) :
    (writeHomeTimeline order post author ms).run n = n.writeHome post author ms := by
  unfold writeHomeTimeline Net.writeHome Graph.getFollowers
  simp only [look, change, Prog.run, id]
  cases n.graph.followers author with
  | some l =>
    simp only
    rw [pushHome_run post _ (ho _).1, append_congr n.home post (ho (l ++ ms)).2]
  | none =>
    simp only [Prog.run, id]
    cases n.graph.users.find? (·.user = author) with
    | none => rfl
    | some info =>
      simp only [Prog.run]
      rw [pushHome_run post _ (ho _).1, append_congr n.home post (ho _).2]

private theorem home_within (order : List Id → List Id) (post author : Id) (ms : List Id) :
    Within samePart Part.rest (writeHomeTimeline order post author ms) := by
  refine .act (fun s s' h => ⟨h, ?_⟩) (fun q _ s => by cases q <;> simp [samePart]) fun s => ?_
  · rw [h.1]
  · cases s.graph.followers author with
    | some l => exact pushHome_within _ _
    | none =>
      refine .act (fun s s' h => ⟨h, ?_⟩) (fun q _ s => by cases q <;> simp [samePart]) fun s => ?_
      · rw [h.1]
      · cases s.graph.users.find? (·.user = author) with
        | none => exact .done
        | some info =>
          refine .act (fun a b h => ⟨?_, rfl⟩) (fun q hq s => by cases q <;> simp_all [samePart]) fun _ => pushHome_within _ _
          simp only [samePart] at h ⊢
          rw [h.1]; exact ⟨rfl, h.2⟩

private theorem cache_within (post u : Id) : Within samePart Part.timelines (cacheTimeline post u) := by
  refine .act (fun s s' h => ⟨h, ?_⟩) (fun q _ s => by cases q <;> simp [samePart]) fun s => ?_
  · simp only [samePart] at h; rw [h]
  · cases s.timelines.cached u with
    | none => exact .done
    | some l =>
      refine .act (fun a b h => ⟨?_, rfl⟩) (fun q hq s => by cases q <;> simp_all [samePart]) fun _ => .done
      simp only [samePart] at h ⊢; rw [h]

private theorem timeline_within (post u : Id) : Within samePart Part.timelines (writeTimeline post u) := by
  refine .act (fun s s' h => ⟨h, ?_⟩) (fun q _ s => by cases q <;> simp [samePart]) fun s => ?_
  · simp only [samePart] at h; rw [h]
  · split
    · refine .act (fun a b h => ⟨?_, rfl⟩) (fun q hq s => by cases q <;> simp_all [samePart, pushTimeline]) fun _ => cache_within _ _
      simp only [samePart] at h ⊢
      simp only [pushTimeline]; rw [h]
    · refine .act (fun a b h => ⟨?_, rfl⟩) (fun q hq s => by cases q <;> simp_all [samePart, insertTimeline]) fun _ => cache_within _ _
      simp only [samePart] at h ⊢
      simp only [insertTimeline]; rw [h]

private theorem timeline_run (post u : Id) (n : Net) :
    (writeTimeline post u).run n = ({ n with timelines := (n.timelines.write post u).1 }, (n.timelines.write post u).2) := by
  unfold writeTimeline Timelines.write Timelines.store cacheTimeline
  simp only [look, change, Prog.run, id]
  by_cases h : n.timelines.db.any (·.1 = u) = true
  · simp only [h, if_true, Prog.run, pushTimeline]
    have e : ∀ d, Timelines.cached ⟨d, n.timelines.cache⟩ u = n.timelines.cached u := fun _ => rfl
    simp only [e, id]
    cases n.timelines.cached u <;> rfl
  · simp only [h, Bool.false_eq_true, if_false, Prog.run, insertTimeline]
    have e : ∀ d, Timelines.cached ⟨d, n.timelines.cache⟩ u = n.timelines.cached u := fun _ => rfl
    simp only [e, id]
    cases n.timelines.cached u <;> rfl

/-- C125: the goroutines inside one `ComposePost`, in whatever order they make their calls and in whatever order the users of a set are
visited, do together what the calls do one after the other: `Net.compose`, about which C91, C92, C93 and C120 are. -/
theorem C125_compose (order : List Id → List Id) (ho : Visits order) (p : Post) (author : Id) (ms : List Id) (n : Net) (sched : List Nat)
    (he : (Sys.run ⟨n, composeThreads order p author ms⟩ sched).Ended) :
    (Sys.run ⟨n, composeThreads order p author ms⟩ sched).store = (n.compose p author ms).1 ∧
    ((n.compose p author ms).2 = true ↔ ∀ t ∈ (Sys.run ⟨n, composeThreads order p author ms⟩ sched).threads, t = .done true) := by
  let own : Nat → Part := fun i => if i = 0 then .posts else if i = 1 then .timelines else .rest
  have hown : ∀ i j, i < (composeThreads order p author ms).length → j < (composeThreads order p author ms).length → own i = own j → i = j := by
    intro i j hi hj h
    simp only [composeThreads, List.length_cons, List.length_nil] at hi hj
    match i, j, hi, hj with
    | 0, 0, _, _ => rfl
    | 1, 1, _, _ => rfl
    | 2, 2, _, _ => rfl
    | 0, 1, _, _ => simp [own] at h
    | 0, 2, _, _ => simp [own] at h
    | 1, 0, _, _ => simp [own] at h
    | 1, 2, _, _ => simp [own] at h
    | 2, 0, _, _ => simp [own] at h
    | 2, 1, _, _ => simp [own] at h
  have hw : ∀ i q, (composeThreads order p author ms)[i]? = some q → Within samePart (own i) q := by
    intro i q hq
    match i, hq with
    | 0, hq =>
      cases hq
      refine .act (fun a b h => ⟨?_, rfl⟩) (fun q hq s => ?_) fun _ => .done
      · simp only [samePart, own] at h ⊢; simp only [if_true] at h ⊢; rw [h]
      · cases q <;> simp_all [samePart, own]
    | 1, hq => cases hq; exact timeline_within _ _
    | 2, hq => cases hq; exact home_within _ _ _ _
  have htr : ∀ q a b c, samePart q a b → samePart q b c → samePart q a c := by
    intro q a b c h1 h2
    cases q
    · exact Eq.trans h1 h2
    · exact Eq.trans h1 h2
    · exact ⟨h1.1.trans h2.1, h1.2.trans h2.2⟩
  obtain ⟨h1, -⟩ := C125_isolation (same := samePart) (fun q s => by cases q <;> simp [samePart]) htr n _ own hown hw sched he
  obtain ⟨a0, b0⟩ := h1 0 _ rfl
  obtain ⟨a1, b1⟩ := h1 1 _ rfl
  obtain ⟨a2, b2⟩ := h1 2 _ rfl
  rw [timeline_run] at a1 b1
  rw [home_run order ho] at a2 b2
  have hlen := (isolated (same := samePart) (fun q s => by cases q <;> simp [samePart]) htr n _ own hown hw sched).2.1
  generalize Sys.run ⟨n, composeThreads order p author ms⟩ sched = S at *
  have ec : n.compose p author ms = (⟨(n.writeHome p.id author ms).1.graph, (n.timelines.write p.id author).1,
      (n.writeHome p.id author ms).1.home, n.posts.store p⟩,
      (n.timelines.write p.id author).2 && (n.writeHome p.id author ms).2) := by
    unfold Net.compose Net.writeHome
    simp only
    cases h : n.graph.getFollowers author with
    | mk g o => cases o <;> rfl
  rw [ec]
  constructor
  · obtain ⟨store, threads⟩ := S
    obtain ⟨g, t, h, ps⟩ := store
    simp only [samePart, own, storePost, change, Prog.run] at a0 a1 a2
    simp at a0 a1 a2
    rw [← a0, ← a1, ← a2.1, ← a2.2]
  · simp only [storePost, change, Prog.run] at b0
    have hT : S.threads = [.done true, .done (n.timelines.write p.id author).2, .done (n.writeHome p.id author ms).2] := by
      apply List.ext_getElem?
      intro i
      match i with
      | 0 => exact b0
      | 1 => exact b1
      | 2 => exact b2
      | i + 3 =>
        rw [List.getElem?_eq_none (by simp only [composeThreads, List.length_cons, List.length_nil] at hlen; omega)]
        rfl
    rw [hT]
    simp

/-! ### Follow and Unfollow -/

private inductive GPart where
  | followees | followers | cache
deriving DecidableEq

private def sameG : GPart → Graph → Graph → Prop
  | .followees, g, h => g.users.map (fun i => (i.user, i.followees)) = h.users.map (fun i => (i.user, i.followees))
  | .followers, g, h => g.users.map (fun i => (i.user, i.followers)) = h.users.map (fun i => (i.user, i.followers))
  | .cache, g, h => g.followers = h.followers ∧ g.followees = h.followees

private theorem mapUF {α β : Type} (q : α → β) {p : α → Bool} {p' : β → Bool} {f : α → α} {f' : β → β} (hp : ∀ x, p x = p' (q x))
    (hf : ∀ x, q (f x) = f' (q x)) (l : List α) : (updateFirst p f l).map q = updateFirst p' f' (l.map q) := by
  induction l with
  | nil => rfl
  | cons x l ih =>
    simp only [updateFirst, List.map_cons, ← hp]
    split
    · rw [List.map_cons, hf]
    · rw [List.map_cons, ih]

private theorem mapUF_same {α β : Type} (q : α → β) (p : α → Bool) {f : α → α} (hf : ∀ x, q (f x) = q x) (l : List α) :
    (updateFirst p f l).map q = l.map q := by
  induction l with
  | nil => rfl
  | cons x l ih =>
    simp only [updateFirst]
    split
    · rw [List.map_cons, List.map_cons, hf]
    · rw [List.map_cons, List.map_cons, ih]

private theorem users_ext : ∀ {l l' : List UserInfo}, l.map (fun i => (i.user, i.followees)) = l'.map (fun i => (i.user, i.followees)) →
    l.map (fun i => (i.user, i.followers)) = l'.map (fun i => (i.user, i.followers)) → l = l'
  | [], [], _, _ => rfl
  | [], _ :: _, h, _ => by simp at h
  | _ :: _, [], h, _ => by simp at h
  | x :: l, y :: l', h1, h2 => by
    simp only [List.map_cons, List.cons.injEq, Prod.mk.injEq] at h1 h2
    rw [users_ext h1.2 h2.2]
    cases x; cases y; simp_all

/-- The goroutines of Follow and of Unfollow. -/
private def relThreads (u v : Id) (fe fr : List Id → List Id) : List (Prog Graph Bool) :=
  [change (fun g => { g with users := updateFirst (·.user = u) (fun i => { i with followees := fe i.followees }) g.users }) (.done true),
   change (fun g => { g with users := updateFirst (·.user = v) (fun i => { i with followers := fr i.followers }) g.users }) (.done true),
   look fun g => look fun g' =>
     change (fun h => { h with followees := h.followees.put u (fe ((g.followees u).getD [])) })
       (change (fun h => { h with followers := h.followers.put v (fr ((g'.followers v).getD [])) }) (.done true))]

private theorem rel_any (u v : Id) (fe fr : List Id → List Id) (g : Graph) (sched : List Nat) (he : (Sys.run ⟨g, relThreads u v fe fr⟩ sched).Ended) :
    (Sys.run ⟨g, relThreads u v fe fr⟩ sched).store =
      { users := updateFirst (·.user = v) (fun i => { i with followers := fr i.followers })
          (updateFirst (·.user = u) (fun i => { i with followees := fe i.followees }) g.users)
        followees := g.followees.put u (fe ((g.followees u).getD []))
        followers := g.followers.put v (fr ((g.followers v).getD [])) } ∧
    ∀ t ∈ (Sys.run ⟨g, relThreads u v fe fr⟩ sched).threads, t = .done true := by
  let own : Nat → GPart := fun i => if i = 0 then .followees else if i = 1 then .followers else .cache
  have hown : ∀ i j, i < (relThreads u v fe fr).length → j < (relThreads u v fe fr).length → own i = own j → i = j := by
    intro i j hi hj h
    simp only [relThreads, List.length_cons, List.length_nil] at hi hj
    match i, j, hi, hj with
    | 0, 0, _, _ => rfl
    | 1, 1, _, _ => rfl
    | 2, 2, _, _ => rfl
    | 0, 1, _, _ => simp [own] at h
    | 0, 2, _, _ => simp [own] at h
    | 1, 0, _, _ => simp [own] at h
    | 1, 2, _, _ => simp [own] at h
    | 2, 0, _, _ => simp [own] at h
    | 2, 1, _, _ => simp [own] at h
  have u1 : ∀ l : List UserInfo, (updateFirst (·.user = u) (fun i => { i with followees := fe i.followees }) l).map (fun i => (i.user, i.followees)) =
      updateFirst (fun x => decide (x.1 = u)) (fun x => (x.1, fe x.2)) (l.map fun i => (i.user, i.followees)) := by
    intro l; exact mapUF (p' := fun x => decide (x.1 = u)) (f := fun i => { i with followees := fe i.followees }) (f' := fun x => (x.1, fe x.2)) (fun i => (i.user, i.followees)) (fun x => rfl) (fun x => rfl) l
  have u2 : ∀ l : List UserInfo, (updateFirst (·.user = v) (fun i => { i with followers := fr i.followers }) l).map (fun i => (i.user, i.followers)) =
      updateFirst (fun x => decide (x.1 = v)) (fun x => (x.1, fr x.2)) (l.map fun i => (i.user, i.followers)) := by
    intro l; exact mapUF (p' := fun x => decide (x.1 = v)) (f := fun i => { i with followers := fr i.followers }) (f' := fun x => (x.1, fr x.2)) (fun i => (i.user, i.followers)) (fun x => rfl) (fun x => rfl) l
  have u3 : ∀ l : List UserInfo, (updateFirst (·.user = u) (fun i => { i with followees := fe i.followees }) l).map (fun i => (i.user, i.followers)) =
      l.map fun i => (i.user, i.followers) := fun l => mapUF_same (f := fun i => { i with followees := fe i.followees }) _ _ (fun x => rfl) l
  have u4 : ∀ l : List UserInfo, (updateFirst (·.user = v) (fun i => { i with followers := fr i.followers }) l).map (fun i => (i.user, i.followees)) =
      l.map fun i => (i.user, i.followees) := fun l => mapUF_same (f := fun i => { i with followers := fr i.followers }) _ _ (fun x => rfl) l
  have hw : ∀ i q, (relThreads u v fe fr)[i]? = some q → Within sameG (own i) q := by
    intro i q hq
    match i, hq with
    | 0, hq =>
      cases hq
      refine .act (fun a b h => ⟨?_, rfl⟩) (fun q hq s => ?_) fun _ => .done
      · have h' : sameG .followees a b := h
        show sameG .followees _ _
        simp only [sameG] at h' ⊢
        rw [u1, u1, h']
      · cases q
        · exact absurd rfl hq
        · simp only [sameG]; rw [u3]
        · exact ⟨rfl, rfl⟩
    | 1, hq =>
      cases hq
      refine .act (fun a b h => ⟨?_, rfl⟩) (fun q hq s => ?_) fun _ => .done
      · have h' : sameG .followers a b := h
        show sameG .followers _ _
        simp only [sameG] at h' ⊢
        rw [u2, u2, h']
      · cases q
        · simp only [sameG]; rw [u4]
        · exact absurd rfl hq
        · exact ⟨rfl, rfl⟩
    | 2, hq =>
      cases hq
      show Within sameG .cache _
      refine .act (fun a b h => ⟨h, ?_⟩) (fun q _ s => by cases q <;> simp [sameG]) fun s => ?_
      · rw [h.2]
      refine .act (fun a b h => ⟨h, ?_⟩) (fun q _ s => by cases q <;> simp [sameG]) fun s' => ?_
      · rw [h.1]
      refine .act (fun a b h => ⟨⟨h.1, by rw [h.2]⟩, rfl⟩) (fun q hq s => by cases q <;> simp_all [sameG]) fun _ => ?_
      exact .act (fun a b h => ⟨⟨by rw [h.1], h.2⟩, rfl⟩) (fun q hq s => by cases q <;> simp_all [sameG]) fun _ => .done
  have htr : ∀ q a b c, sameG q a b → sameG q b c → sameG q a c := by
    intro q a b c h1 h2
    cases q
    · exact Eq.trans h1 h2
    · exact Eq.trans h1 h2
    · exact ⟨h1.1.trans h2.1, h1.2.trans h2.2⟩
  have hre : ∀ q s, sameG q s s := fun q s => by cases q <;> simp [sameG]
  obtain ⟨h1, -⟩ := C125_isolation (same := sameG) hre htr g _ own hown hw sched he
  obtain ⟨a0, b0⟩ := h1 0 _ rfl
  obtain ⟨a1, b1⟩ := h1 1 _ rfl
  obtain ⟨a2, b2⟩ := h1 2 _ rfl
  have hlen := (isolated (same := sameG) hre htr g _ own hown hw sched).2.1
  generalize Sys.run ⟨g, relThreads u v fe fr⟩ sched = S at *
  constructor
  · obtain ⟨store, threads⟩ := S
    obtain ⟨us, fs, gs⟩ := store
    have a0' : sameG .followees _ _ := a0
    have a1' : sameG .followers _ _ := a1
    have a2' : sameG .cache _ _ := a2
    simp only [sameG, change, look, Prog.run, id] at a0' a1' a2'
    rw [u1] at a0'
    rw [u2] at a1'
    rw [← a2'.1, ← a2'.2]
    have hu : us = updateFirst (·.user = v) (fun i => { i with followers := fr i.followers })
          (updateFirst (·.user = u) (fun i => { i with followees := fe i.followees }) g.users) := ?_
    · rw [hu]
    apply users_ext
    · rw [u4, u1]; exact a0'.symm
    · rw [u2, u3]; exact a1'.symm
  · have hT : S.threads = [.done true, .done true, .done true] := by
      apply List.ext_getElem?
      intro i
      match i with
      | 0 => exact b0
      | 1 => exact b1
      | 2 => exact b2
      | i + 3 =>
        rw [List.getElem?_eq_none (by simp only [relThreads, List.length_cons, List.length_nil] at hlen; omega)]
        rfl
    rw [hT]
    simp

/-- C125: the goroutines inside one `Follow`, in whatever order, also if a user follows itself, do together what `Graph.follow` (about
which C90 is) does. -/
theorem C125_follow (u v : Id) (g : Graph) (sched : List Nat) (he : (Sys.run ⟨g, followThreads u v⟩ sched).Ended) :
    (Sys.run ⟨g, followThreads u v⟩ sched).store = g.follow u v ∧ ∀ t ∈ (Sys.run ⟨g, followThreads u v⟩ sched).threads, t = .done true :=
  rel_any u v (· ++ [v]) (· ++ [u]) g sched he

/-- C125: and so do those inside one `Unfollow`. -/
theorem C125_unfollow (u v : Id) (g : Graph) (sched : List Nat) (he : (Sys.run ⟨g, unfollowThreads u v⟩ sched).Ended) :
    (Sys.run ⟨g, unfollowThreads u v⟩ sched).store = g.unfollow u v ∧ ∀ t ∈ (Sys.run ⟨g, unfollowThreads u v⟩ sched).threads, t = .done true :=
  rel_any u v (·.filter (· ≠ v)) (·.filter (· ≠ u)) g sched he

/-! ### Several methods at the same time -/

/-- Where a goroutine is that writes a post to home timelines: the users that it has written to, and those that are left; `read` is
what it has read and not yet written back. -/
private inductive At (post : Id) (to : List Id) (ok : Id → List Id → Prop) (before : List Id) : Prog Net Bool → Prop where
  | todo {us : List Id} : to = before ++ us → At post to ok before (pushHome post us)
  | mid {u : Id} {l us : List Id} : to = before ++ u :: us → ok u l →
      At post to ok before (.act (fun m => { m with home := m.home.put u (l ++ [post]) }) fun _ => pushHome post us)

/-- What can be in the home timeline of a user: what was there, and posts that have been written, each once. -/
private def Legit (init : Id → List Id) (posts : List (Id × List Id)) (before : Nat → List Id) (u : Id) (l : List Id) : Prop :=
  ∃ ps, l = init u ++ ps ∧ ps.Nodup ∧ ∀ q ∈ ps, ∃ j to, posts[j]? = some (q, to) ∧ u ∈ before j

private structure HomeInv (n : Net) (posts : List (Id × List Id)) (before : Nat → List Id) (S : Sys Net Bool) : Prop where
  threads : ∀ i p to, posts[i]? = some (p, to) → ∃ t, S.threads[i]? = some t ∧
    At p to (Legit (fun x => (n.home x).getD []) posts before) (before i) t
  length : S.threads.length = posts.length
  legit : ∀ x, Legit (fun x => (n.home x).getD []) posts before x ((S.store.home x).getD [])
  grows : ∀ x i, i < posts.length → x ∈ before i → (S.store.home x).getD [] ≠ (n.home x).getD []
  others : ∀ x, (∀ i p to, posts[i]? = some (p, to) → x ∉ before i) → S.store.home x = n.home x

private theorem legit_mono {init : Id → List Id} {posts : List (Id × List Id)} {b b' : Nat → List Id} (h : ∀ j x, x ∈ b j → x ∈ b' j)
    {u : Id} {l : List Id} (hl : Legit init posts b u l) : Legit init posts b' u l := by
  obtain ⟨ps, h1, h2, h3⟩ := hl
  refine ⟨ps, h1, h2, fun q hq => ?_⟩
  obtain ⟨j, to, h4, h5⟩ := h3 q hq
  exact ⟨j, to, h4, h _ _ h5⟩

private theorem at_mono {p : Id} {to : List Id} {ok ok' : Id → List Id → Prop} (h : ∀ u l, ok u l → ok' u l) {b : List Id} {t : Prog Net Bool}
    (ha : At p to ok b t) : At p to ok' b t := by
  cases ha with
  | todo e => exact .todo e
  | mid e hk => exact .mid e (h _ _ hk)

private theorem home_step {n : Net} {posts : List (Id × List Id)} (hp : (posts.map (·.1)).Nodup) (hto : ∀ e ∈ posts, e.2.Nodup)
    {before : Nat → List Id} {S : Sys Net Bool} (I : HomeInv n posts before S) (i : Nat) :
    ∃ before', HomeInv n posts before' (S.step i) := by
  by_cases hi : i < posts.length
  · obtain ⟨⟨p, to⟩, hpt⟩ : ∃ e, posts[i] = e := ⟨_, rfl⟩
    have hpi : posts[i]? = some (p, to) := by rw [List.getElem?_eq_getElem hi, hpt]
    obtain ⟨t, ht, ha⟩ := I.threads i p to hpi
    have hil : i < S.threads.length := by rw [I.length]; exact hi
    cases ha with
    | @todo us e =>
      cases us with
      | nil =>
        have hst : S.step i = S := by unfold Sys.step; rw [ht]; rfl
        rw [hst]; exact ⟨before, I⟩
      | cons u us =>
        have hst : S.step i = ⟨S.store, S.threads.set i (.act (fun m => { m with home := m.home.put u ((S.store.home u).getD [] ++ [p]) })
            fun _ => pushHome p us)⟩ := by
          unfold Sys.step; rw [ht]; rfl
        rw [hst]
        refine ⟨before, ?_, by simpa using I.length, I.legit, I.grows, I.others⟩
        intro j q to' hj
        by_cases hij : i = j
        · subst hij
          rw [hpi] at hj; cases hj
          exact ⟨_, List.getElem?_set_self hil, .mid e (I.legit u)⟩
        · simp only
          rw [List.getElem?_set_ne hij]
          exact I.threads j q to' hj
    | @mid u l us e hl =>
      have hst : S.step i = ⟨{ S.store with home := S.store.home.put u (l ++ [p]) }, S.threads.set i (pushHome p us)⟩ := by
        unfold Sys.step; rw [ht]
      rw [hst]
      have hnd : to.Nodup := hto _ (List.mem_of_getElem? hpi)
      have hub : u ∉ before i := by
        rw [e, List.nodup_append] at hnd
        exact fun h => hnd.2.2 u h u (by simp) rfl
      let before' : Nat → List Id := fun j => if j = i then before i ++ [u] else before j
      have hmono : ∀ j x, x ∈ before j → x ∈ before' j := by
        intro j x hx
        by_cases hj : j = i
        · subst hj; simp only [before', if_true]; exact List.mem_append_left _ hx
        · simp only [before', if_neg hj]; exact hx
      have hself : u ∈ before' i := by simp [before']
      refine ⟨before', ?_, by simpa using I.length, ?_, ?_, ?_⟩
      · intro j q to' hj
        by_cases hij : i = j
        · subst hij
          rw [hpi] at hj; cases hj
          refine ⟨_, List.getElem?_set_self hil, ?_⟩
          simp only [before', if_true]
          exact .todo (by rw [e]; simp)
        · simp only
          rw [List.getElem?_set_ne hij]
          obtain ⟨t', ht', ha'⟩ := I.threads j q to' hj
          refine ⟨t', ht', ?_⟩
          have : before' j = before j := by simp only [before', if_neg (Ne.symm hij)]
          rw [this]
          exact at_mono (fun _ _ h => legit_mono hmono h) ha'
      · intro x
        by_cases hx : x = u
        · subst hx
          simp only [Map.put, if_true, Option.getD_some]
          obtain ⟨ps, h1, h2, h3⟩ := hl
          refine ⟨ps ++ [p], by rw [h1]; simp, ?_, ?_⟩
          · rw [List.nodup_append]
            refine ⟨h2, by simp, ?_⟩
            intro a ha b hb hab
            simp only [List.mem_singleton] at hb
            subst hb; subst hab
            obtain ⟨j, to', hj, hxj⟩ := h3 a ha
            have hji : j = i := by
              have e1 : (posts.map (·.1))[j]? = (posts.map (·.1))[i]? := by rw [List.getElem?_map, List.getElem?_map, hj, hpi]; rfl
              exact (List.getElem?_inj (by rw [List.length_map]; exact (List.getElem?_eq_some_iff.1 hj).1) hp).1 e1
            subst hji
            exact hub hxj
          · intro q hq
            rcases List.mem_append.1 hq with hq | hq
            · obtain ⟨j, to', hj, hxj⟩ := h3 q hq
              exact ⟨j, to', hj, hmono _ _ hxj⟩
            · simp only [List.mem_singleton] at hq; subst hq
              exact ⟨i, to, hpi, hself⟩
        · simp only [Map.put, if_neg hx]
          exact legit_mono hmono (I.legit x)
      · intro x j hj hx
        by_cases hxu : x = u
        · subst hxu
          simp only [Map.put, if_true, Option.getD_some]
          obtain ⟨ps, h1, -⟩ := hl
          intro h
          rw [h1] at h
          have := congrArg List.length h
          simp at this
        · simp only [Map.put, if_neg hxu]
          refine I.grows x j hj ?_
          simp only [before'] at hx
          split at hx
          · next h =>
            subst h
            rcases List.mem_append.1 hx with h | h
            · exact h
            · simp only [List.mem_singleton] at h; exact absurd h hxu
          · exact hx
      · intro x hx
        have hxu : x ≠ u := fun h => hx i p to hpi (h ▸ hself)
        simp only [Map.put, if_neg hxu]
        exact I.others x fun j q to' hj h => hx j q to' hj (hmono _ _ h)
  · have hst : S.step i = S := by
      unfold Sys.step
      rw [List.getElem?_eq_none (by rw [I.length]; omega)]
    rw [hst]
    exact ⟨before, I⟩

/-- C125: posts that are written to home timelines at the same time, in whatever order the calls of the cache come.  Every home timeline
then has what it had, followed by posts that were made for its user, no post twice and no others.  When all have been written, a user for
whom there was exactly one of the posts has it, a user for whom there were several has at least one of them, and a user for whom there was
none has what was there.  Full property: a user has all of them (`C125_home_lost_refuted`). -/
theorem C125_home_partial (n : Net) (posts : List (Id × List Id)) (hp : (posts.map (·.1)).Nodup) (hto : ∀ e ∈ posts, e.2.Nodup)
    (sched : List Nat) :
    let S := Sys.run ⟨n, posts.map fun e => pushHome e.1 e.2⟩ sched
    ∀ x, ∃ ps, (S.store.home x).getD [] = (n.home x).getD [] ++ ps ∧ ps.Nodup ∧ (∀ q ∈ ps, ∃ to, (q, to) ∈ posts ∧ x ∈ to) ∧
      (S.Ended → ((∃ q to, (q, to) ∈ posts ∧ x ∈ to) ↔ ps ≠ []) ∧
        ∀ q to, (q, to) ∈ posts → x ∈ to → (∀ q' to', (q', to') ∈ posts → x ∈ to' → q' = q) → ps = [q]) := by
  have key : ∀ l : List Nat, ∃ before, HomeInv n posts before (Sys.run ⟨n, posts.map fun e => pushHome e.1 e.2⟩ l.reverse) := by
    intro l
    induction l with
    | nil =>
      refine ⟨fun _ => [], ?_, by simp [Sys.run], ?_, by simp, fun _ _ => rfl⟩
      · intro i p to h
        refine ⟨pushHome p to, ?_, .todo rfl⟩
        simp only [List.reverse_nil, Sys.run, List.foldl_nil]
        rw [List.getElem?_map, h]; rfl
      · intro x
        exact ⟨[], by simp [Sys.run], by simp, by simp⟩
    | cons i l ih =>
      obtain ⟨b, I⟩ := ih
      rw [List.reverse_cons]
      have : Sys.run ⟨n, posts.map fun e => pushHome e.1 e.2⟩ (l.reverse ++ [i]) = (Sys.run ⟨n, posts.map fun e => pushHome e.1 e.2⟩ l.reverse).step i := by
        unfold Sys.run; rw [List.foldl_append]; rfl
      rw [this]
      exact home_step hp hto I i
  intro S x
  obtain ⟨before, I⟩ := key sched.reverse
  rw [List.reverse_reverse] at I
  have hsub : ∀ j p to, posts[j]? = some (p, to) → ∀ y ∈ before j, y ∈ to := by
    intro j p to hj y hy
    obtain ⟨t, -, ha⟩ := I.threads j p to hj
    cases ha with
    | todo e => rw [e]; exact List.mem_append_left _ hy
    | mid e _ => rw [e]; exact List.mem_append_left _ hy
  obtain ⟨ps, h1, h2, h3⟩ := I.legit x
  have h3' : ∀ q ∈ ps, ∃ to, (q, to) ∈ posts ∧ x ∈ to := by
    intro q hq
    obtain ⟨j, to, hj, hx⟩ := h3 q hq
    exact ⟨to, List.mem_of_getElem? hj, hsub j q to hj x hx⟩
  refine ⟨ps, h1, h2, h3', fun hend => ?_⟩
  have hall : ∀ q to, (q, to) ∈ posts → x ∈ to → ps ≠ [] := by
    intro q to hq hx hps
    obtain ⟨j, hj, hjq⟩ := List.mem_iff_getElem.1 hq
    have hj' : posts[j]? = some (q, to) := by rw [List.getElem?_eq_getElem hj, hjq]
    obtain ⟨t, ht, ha⟩ := I.threads j q to hj'
    obtain ⟨r, hr⟩ := hend t (List.mem_of_getElem? ht)
    have hb : x ∈ before j := by
      cases ha with
      | @todo us e =>
        cases us with
        | nil => rw [List.append_nil] at e; rw [← e]; exact hx
        | cons u us => exact absurd hr (by simp [pushHome, look])
      | mid e _ => cases hr
    exact I.grows x j hj hb (by rw [h1, hps, List.append_nil])
  refine ⟨⟨fun ⟨q, to, hq, hx⟩ => hall q to hq hx, fun hne => ?_⟩, ?_⟩
  · obtain ⟨q, ps', rfl⟩ := List.exists_cons_of_ne_nil hne
    obtain ⟨to, hq⟩ := h3' q (by simp)
    exact ⟨q, to, hq⟩
  · intro q to hq hx huniq
    have hne := hall q to hq hx
    have hallq : ∀ a ∈ ps, a = q := by
      intro a ha
      obtain ⟨to', h4, h5⟩ := h3' a ha
      exact huniq a to' h4 h5
    cases ps with
    | nil => exact absurd rfl hne
    | cons a ps =>
      cases ps with
      | nil => rw [hallq a (by simp)]
      | cons b ps =>
        rw [hallq a (by simp), hallq b (by simp)] at h2
        simp at h2

/-- C125, disagreement: of two posts for the same user that are made at the same time, one is never in the user's home timeline, although
both calls return without an error: both read the timeline before either of them writes it. -/
theorem C125_home_lost_refuted (n : Net) (u p q : Id) :
    let S := Sys.run ⟨n, [pushHome p [u], pushHome q [u]]⟩ [0, 1, 0, 1]
    S.threads = [.done true, .done true] ∧ S.store.home u = some ((n.home u).getD [] ++ [q]) := by
  refine ⟨rfl, ?_⟩
  simp [Sys.run, Sys.step, pushHome, look, change, Map.put]

/-- C125, disagreement: of two users who follow the same user at the same time, one is not among the followers as `GetFollowers` returns
them, and will not get the posts, although both calls return without an error and the database has both followers. -/
theorem C125_follow_lost_refuted (g : Graph) (a b v : Id) (hav : a ≠ v) (hbv : b ≠ v) (info : UserInfo)
    (hv : g.users = [info]) (hi : info.user = v) :
    let S := Sys.run ⟨g, followThreads a v ++ followThreads b v⟩ [0, 1, 3, 4, 2, 2, 5, 5, 2, 2, 5, 5]
    (∀ t ∈ S.threads, t = .done true) ∧ (S.store.getFollowers v).2 = some ((g.followers v).getD [] ++ [b]) ∧
    S.store.users = [{ info with followers := info.followers ++ [a, b] }] := by
  refine ⟨?_, ?_, ?_⟩
  · simp [Sys.run, Sys.step, followThreads, look, change]
  · simp [Sys.run, Sys.step, followThreads, look, change, Graph.getFollowers, Map.put]
  · simp [Sys.run, Sys.step, followThreads, look, change, hv, updateFirst, hi, Ne.symm hav, Ne.symm hbv]

/-- A goroutine that no longer changes the documents of the user timelines. -/
private inductive Quiet : Prog Net Bool → Prop where
  | done {r : Bool} : Quiet (.done r)
  | act {f : Net → Net} {next : Net → Prog Net Bool} : (∀ n, (f n).timelines.db = n.timelines.db) → (∀ n, Quiet (next n)) → Quiet (.act f next)

private theorem quiet_cache (p u : Id) : Quiet (cacheTimeline p u) := by
  refine .act (fun _ => rfl) fun n => ?_
  split
  · exact .done
  · exact .act (fun _ => rfl) fun _ => .done

private structure DbInv (n : Net) (posts done : List (Id × Id)) (S : Sys Net Bool) : Prop where
  sub : ∀ e ∈ done, e ∈ posts
  nodup : (done.map (·.1)).Nodup
  length : S.threads.length = posts.length
  db : S.store.timelines.db = n.timelines.db.map fun d => (d.1, (done.filter (·.2 = d.1)).map (·.1) ++ d.2)
  threads : ∀ (i : Nat) (e : Id × Id), posts[i]? = some e → ∃ t, S.threads[i]? = some t ∧
    ((e ∈ done ∧ Quiet t) ∨ (e ∉ done ∧ (t = writeTimeline e.1 e.2 ∨ t = change (pushTimeline e.1 e.2) (cacheTimeline e.1 e.2))))

private theorem fst_inj {posts : List (Id × Id)} (hp : (posts.map (·.1)).Nodup) {i j : Nat} {a b : Id × Id} (ha : posts[i]? = some a)
    (hb : posts[j]? = some b) (h : a.1 = b.1) : i = j ∧ a = b := by
  have e1 : (posts.map (·.1))[i]? = (posts.map (·.1))[j]? := by rw [List.getElem?_map, List.getElem?_map, ha, hb]; simp [h]
  have hij := (List.getElem?_inj (by rw [List.length_map]; exact (List.getElem?_eq_some_iff.1 ha).1) hp).1 e1
  subst hij
  rw [ha] at hb
  exact ⟨rfl, Option.some.inj hb⟩

private theorem db_step {n : Net} {posts : List (Id × Id)} (hp : (posts.map (·.1)).Nodup)
    (hdoc : ∀ e ∈ posts, ∃ d ∈ n.timelines.db, d.1 = e.2) {done : List (Id × Id)} {S : Sys Net Bool} (I : DbInv n posts done S) (i : Nat) :
    ∃ done', DbInv n posts done' (S.step i) := by
  by_cases hi : i < posts.length
  · obtain ⟨e, he⟩ : ∃ e, posts[i] = e := ⟨_, rfl⟩
    have hei : posts[i]? = some e := by rw [List.getElem?_eq_getElem hi, he]
    obtain ⟨t, ht, hc⟩ := I.threads i e hei
    have hil : i < S.threads.length := by rw [I.length]; exact hi
    rcases hc with ⟨hd, hq⟩ | ⟨hd, rfl | rfl⟩
    · cases hq with
      | done =>
        have hst : S.step i = S := by unfold Sys.step; rw [ht]
        rw [hst]; exact ⟨done, I⟩
      | @act f next hf hn =>
        have hst : S.step i = ⟨f S.store, S.threads.set i (next S.store)⟩ := by unfold Sys.step; rw [ht]
        rw [hst]
        refine ⟨done, I.sub, I.nodup, by simpa using I.length, by simp only; rw [hf, I.db], ?_⟩
        intro j e' hj
        by_cases hij : i = j
        · subst hij
          rw [hei] at hj; cases hj
          exact ⟨_, List.getElem?_set_self hil, .inl ⟨hd, hn _⟩⟩
        · simp only
          rw [List.getElem?_set_ne hij]
          exact I.threads j e' hj
    · have hany : (S.store.timelines.db.any (·.1 = e.2)) = true := by
        obtain ⟨d, hd1, hd2⟩ := hdoc e (List.mem_of_getElem? hei)
        rw [I.db, List.any_map, List.any_eq_true]
        exact ⟨d, hd1, by simp [hd2]⟩
      have hst : S.step i = ⟨S.store, S.threads.set i (change (pushTimeline e.1 e.2) (cacheTimeline e.1 e.2))⟩ := by
        unfold Sys.step; rw [ht]
        simp only [writeTimeline, look, id]
        rw [if_pos hany]
      rw [hst]
      refine ⟨done, I.sub, I.nodup, by simpa using I.length, I.db, ?_⟩
      intro j e' hj
      by_cases hij : i = j
      · subst hij
        rw [hei] at hj; cases hj
        exact ⟨_, List.getElem?_set_self hil, .inr ⟨hd, .inr rfl⟩⟩
      · simp only
        rw [List.getElem?_set_ne hij]
        exact I.threads j e' hj
    · have hst : S.step i = ⟨pushTimeline e.1 e.2 S.store, S.threads.set i (cacheTimeline e.1 e.2)⟩ := by
        unfold Sys.step; rw [ht]; rfl
      rw [hst]
      refine ⟨e :: done, ?_, ?_, by simpa using I.length, ?_, ?_⟩
      · intro x hx
        rcases List.mem_cons.1 hx with rfl | hx
        · exact List.mem_of_getElem? hei
        · exact I.sub x hx
      · rw [List.map_cons, List.nodup_cons]
        refine ⟨?_, I.nodup⟩
        intro hm
        obtain ⟨d, hd1, hd2⟩ := List.mem_map.1 hm
        obtain ⟨j, hj⟩ := List.getElem?_of_mem (I.sub d hd1)
        exact hd ((fst_inj hp hj hei hd2).2 ▸ hd1)
      · simp only [pushTimeline]
        rw [I.db, List.map_map]
        refine List.map_congr_left fun d _ => ?_
        simp only [Function.comp_apply, List.filter_cons]
        by_cases h : d.1 = e.2
        · simp [h]
        · simp [h, Ne.symm h]
      · intro j e' hj
        by_cases hij : i = j
        · subst hij
          rw [hei] at hj; cases hj
          exact ⟨_, List.getElem?_set_self hil, .inl ⟨by simp, quiet_cache _ _⟩⟩
        · simp only
          rw [List.getElem?_set_ne hij]
          obtain ⟨t', ht', hc⟩ := I.threads j e' hj
          refine ⟨t', ht', ?_⟩
          rcases hc with ⟨h1, h2⟩ | ⟨h1, h2⟩
          · exact .inl ⟨List.mem_cons_of_mem _ h1, h2⟩
          · refine .inr ⟨fun h => ?_, h2⟩
            rcases List.mem_cons.1 h with h | h
            · subst h
              exact hij (fst_inj hp hei hj rfl).1
            · exact h1 h
  · have hst : S.step i = S := by
      unfold Sys.step
      rw [List.getElem?_eq_none (by rw [I.length]; omega)]
    rw [hst]
    exact ⟨done, I⟩

/-- C125: posts of users who have posted before, written to user timelines at the same time, in whatever order the calls of the cache and
the database come: each document of the database keeps its user and has, in front of what it had, posts of that user, each once; when
all have been written, it has every one of them.  Full property: also for first posts and for the cache
(`C125_first_posts_refuted`, `C125_timeline_cache_refuted`). -/
theorem C125_user_timeline_partial (n : Net) (posts : List (Id × Id)) (hp : (posts.map (·.1)).Nodup)
    (hdoc : ∀ e ∈ posts, ∃ d ∈ n.timelines.db, d.1 = e.2) (sched : List Nat) :
    let S := Sys.run ⟨n, posts.map fun e => writeTimeline e.1 e.2⟩ sched
    S.store.timelines.db.length = n.timelines.db.length ∧
    ∀ (k : Nat) (u : Id) (l : List Id), n.timelines.db[k]? = some (u, l) → ∃ qs : List Id, S.store.timelines.db[k]? = some (u, qs ++ l) ∧ qs.Nodup ∧ (∀ q ∈ qs, (q, u) ∈ posts) ∧
      (S.Ended → ∀ q, (q, u) ∈ posts → q ∈ qs) := by
  have key : ∀ l : List Nat, ∃ done, DbInv n posts done (Sys.run ⟨n, posts.map fun e => writeTimeline e.1 e.2⟩ l.reverse) := by
    intro l
    induction l with
    | nil =>
      refine ⟨[], by simp, by simp, by simp [Sys.run], by simp [Sys.run], ?_⟩
      intro i e h
      refine ⟨writeTimeline e.1 e.2, ?_, .inr ⟨by simp, .inl rfl⟩⟩
      simp only [List.reverse_nil, Sys.run, List.foldl_nil]
      rw [List.getElem?_map, h]; rfl
    | cons i l ih =>
      obtain ⟨b, I⟩ := ih
      rw [List.reverse_cons]
      have : Sys.run ⟨n, posts.map fun e => writeTimeline e.1 e.2⟩ (l.reverse ++ [i]) =
          (Sys.run ⟨n, posts.map fun e => writeTimeline e.1 e.2⟩ l.reverse).step i := by
        unfold Sys.run; rw [List.foldl_append]; rfl
      rw [this]
      exact db_step hp hdoc I i
  intro S
  obtain ⟨done, I⟩ := key sched.reverse
  rw [List.reverse_reverse] at I
  refine ⟨by rw [I.db, List.length_map], fun k u l hk => ?_⟩
  refine ⟨(done.filter (·.2 = u)).map (·.1), ?_, ?_, ?_, ?_⟩
  · rw [I.db, List.getElem?_map, hk]; rfl
  · exact (List.filter_sublist.map _).nodup I.nodup
  · intro q hq
    obtain ⟨d, hd, rfl⟩ := List.mem_map.1 hq
    rw [List.mem_filter] at hd
    have := I.sub d hd.1
    have h2 : d.2 = u := by simpa using hd.2
    rw [← h2]; exact this
  · intro hend q hq
    obtain ⟨j, hj⟩ := List.getElem?_of_mem hq
    obtain ⟨t, ht, hc⟩ := I.threads j _ hj
    obtain ⟨r, hr⟩ := hend t (List.mem_of_getElem? ht)
    rcases hc with ⟨h1, -⟩ | ⟨-, h | h⟩
    · exact List.mem_map.2 ⟨_, List.mem_filter.2 ⟨h1, by simp⟩, rfl⟩
    · rw [h] at hr; cases hr
    · rw [h] at hr; cases hr

/-- C125, disagreement: the first two posts of a user, made at the same time, give the user two documents, and `ReadUserTimeline` finds
only one of the posts once the cache has lost its entry, although both calls return without an error. -/
theorem C125_first_posts_refuted (n : Net) (u p q : Id) (hu : ∀ d ∈ n.timelines.db, d.1 ≠ u) (hc : n.timelines.cache u = none) :
    let S := Sys.run ⟨n, [writeTimeline p u, writeTimeline q u]⟩ [0, 1, 0, 1, 0, 0, 1, 1]
    S.threads = [.done true, .done true] ∧ S.store.timelines.db = n.timelines.db ++ [(u, [p]), (u, [q])] ∧
    ((S.store.lose (.timeline u)).timelines.read u 0 2).2 = some [p] := by
  have hany : (n.timelines.db.any (·.1 = u)) = false := by
    rw [List.any_eq_false]; intro d hd; simpa using hu d hd
  have hf : n.timelines.db.find? (fun x => decide (x.1 = u)) = none := by
    rw [List.find?_eq_none]; intro d hd; simpa using hu d hd
  refine ⟨?_, ?_, ?_⟩
  · simp [Sys.run, Sys.step, writeTimeline, cacheTimeline, look, change, hany, insertTimeline, Timelines.cached, hc, Map.put]
  · simp [Sys.run, Sys.step, writeTimeline, cacheTimeline, look, change, hany, insertTimeline, Timelines.cached, hc, Map.put]
  · simp [Sys.run, Sys.step, writeTimeline, cacheTimeline, look, change, hany, insertTimeline, Timelines.cached, hc, Map.put, Net.lose,
      Timelines.read, Timelines.older, Map.drop, hf]

/-- C125, disagreement: of two posts of one user, made at the same time, one is missing from the user's cached timeline. -/
theorem C125_timeline_cache_refuted (n : Net) (u p q : Id) (l : List Id) (hu : ∃ d ∈ n.timelines.db, d.1 = u)
    (hc : n.timelines.cached u = some l) :
    let S := Sys.run ⟨n, [writeTimeline p u, writeTimeline q u]⟩ [0, 0, 1, 1, 0, 1, 0, 1]
    S.threads = [.done true, .done true] ∧ S.store.timelines.cached u = some (l ++ [q]) := by
  have hany : (n.timelines.db.any (·.1 = u)) = true := by
    obtain ⟨d, hd, h⟩ := hu
    rw [List.any_eq_true]; exact ⟨d, hd, by simp [h]⟩
  have hany' : ((n.timelines.db.map fun d => if d.1 = u then (u, p :: d.2) else d).any (·.1 = u)) = true := by
    obtain ⟨d, hd, h⟩ := hu
    rw [List.any_map, List.any_eq_true]
    exact ⟨d, hd, by simp [h]⟩
  constructor
  · simp [Sys.run, Sys.step, writeTimeline, cacheTimeline, look, change, hany, hany', pushTimeline, Timelines.cached, Map.put] at hc ⊢
    simp [hc]
  · simp [Sys.run, Sys.step, writeTimeline, cacheTimeline, look, change, hany, hany', pushTimeline, Timelines.cached, Map.put] at hc ⊢
    simp [hc, Map.put]

/-! ### Concrete cases -/

/-- User 1 with the followers 2 and 3; 1 has posted 10. -/
private def small : Net :=
  { Net.init with graph := ⟨[⟨1, [2, 3], []⟩, ⟨2, [], [1]⟩, ⟨3, [], [1]⟩], fun u => if u = 1 then some [2, 3] else none, fun _ => none⟩
                  timelines := ⟨[(1, [10])], fun _ => none⟩ }

private theorem visits_eraseDups : Visits fun l => if l = [2, 3] ++ [2] then [3, 2] else l.eraseDups := by
  intro l
  simp only
  split
  · next h => subst h; exact ⟨by decide, by intro x; simp; exact fun h => .inr h⟩
  · refine ⟨?_, fun x => by simp⟩
    have : ∀ k (l : List Id), l.length ≤ k → l.eraseDups.Nodup := by
      intro k
      induction k with
      | zero => intro l hl; cases l with | nil => simp | cons a l => simp at hl
      | succ k ih =>
        intro l hl
        cases l with
        | nil => simp
        | cons a l =>
          rw [List.eraseDups_cons, List.nodup_cons]
          refine ⟨by simp, ih _ ?_⟩
          have := List.length_filter_le (fun b => !b == a) l
          simp only [List.length_cons] at hl
          omega
    exact this _ l (Nat.le_refl _)

private instance decEnded {σ ρ : Type} (S : Sys σ ρ) : Decidable S.Ended :=
  decidable_of_iff (S.threads.all fun t => match t with | .done _ => true | .act _ _ => false) (by
    unfold Sys.Ended
    rw [List.all_eq_true]
    refine forall_congr' fun t => forall_congr' fun _ => ?_
    cases t <;> simp)

/-- Goroutines of `ComposePost` that take turns: all three end, and the post is in both home timelines. -/
example :
    let S := Sys.run ⟨small, composeThreads (fun l => if l = [2, 3] ++ [2] then [3, 2] else l.eraseDups) ⟨11, ['h']⟩ 1 [2]⟩
      [2, 1, 0, 2, 1, 2, 1, 2, 1, 2, 0, 0]
    S.Ended ∧ S.store.home 2 = some [11] ∧ S.store.home 3 = some [11] ∧ S.store.timelines.db = [(1, [11, 10])] := by
  refine ⟨by decide +kernel, rfl, rfl, rfl⟩

example : (Sys.run ⟨small.graph, followThreads 2 3⟩ [2, 1, 2, 2, 0, 2]).Ended := by decide +kernel

example : (Sys.run ⟨small.graph, unfollowThreads 2 1⟩ [2, 1, 2, 2, 0, 2]).Ended := by decide +kernel

/-- Three posts at the same time: user 3 gets only the second one. -/
example :
    let S := Sys.run ⟨small, [(20, [2]), (21, [3]), (22, [2, 4])].map fun e => pushHome e.1 e.2⟩ [0, 1, 2, 0, 2, 1, 2, 2]
    S.Ended ∧ S.store.home 2 = some [22] ∧ S.store.home 3 = some [21] ∧ S.store.home 4 = some [22] := by
  refine ⟨by decide +kernel, rfl, rfl, rfl⟩

example :
    let S := Sys.run ⟨small, [(20, 1), (21, 1)].map fun e => writeTimeline e.1 e.2⟩ [0, 1, 1, 0, 0, 1, 0, 1]
    S.Ended ∧ S.store.timelines.db = [(1, [20, 21, 10])] := by
  refine ⟨by decide +kernel, rfl⟩

end Verif.Social
