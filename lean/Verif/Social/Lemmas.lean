import Verif.Social.Spec
namespace Verif.Social

theorem Map.put_self {α : Type} (m : Map α) (k : Id) (v : α) : m.put k v k = some v := by simp [Map.put]
theorem Map.put_other {α : Type} (m : Map α) {k x : Id} (v : α) (h : x ≠ k) : m.put k v x = m x := by simp [Map.put, h]
theorem Map.drop_other {α : Type} (m : Map α) {k x : Id} (h : x ≠ k) : m.drop k x = m x := by simp [Map.drop, h]

theorem mem_updateFirst {α : Type} {p : α → Bool} {f : α → α} {l : List α} {x : α} (h : x ∈ updateFirst p f l) :
    x ∈ l ∨ ∃ y ∈ l, p y = true ∧ x = f y := by
  induction l with
  | nil => exact absurd h (by simp [updateFirst])
  | cons y l ih =>
    rw [updateFirst] at h
    split at h
    · next hp =>
      rcases List.mem_cons.1 h with rfl | h
      · exact .inr ⟨y, by simp, hp, rfl⟩
      · exact .inl (by simp [h])
    · rcases List.mem_cons.1 h with rfl | h
      · exact .inl (by simp)
      · rcases ih h with h | ⟨z, hz, h1, h2⟩
        · exact .inl (by simp [h])
        · exact .inr ⟨z, by simp [hz], h1, h2⟩

theorem map_updateFirst {α β : Type} {p : α → Bool} {f : α → α} (k : α → β) (hk : ∀ x, k (f x) = k x) (l : List α) :
    (updateFirst p f l).map k = l.map k := by
  induction l with
  | nil => rfl
  | cons y l ih =>
    rw [updateFirst]
    split
    · simp [hk]
    · simp [ih]

/-! ### The social graph -/

/-- What a call does to the graph. -/
def Graph.step (g : Graph) : Op → Graph
  | .insertUser u => g.insertUser u
  | .follow u v => g.follow u v
  | .unfollow u v => g.unfollow u v
  | .followers u => (g.getFollowers u).1
  | .followees u => (g.getFollowees u).1
  | .compose _ a _ => (g.getFollowers a).1
  | .lose (.followers u) => { g with followers := g.followers.drop u }
  | .lose (.followees u) => { g with followees := g.followees.drop u }
  | _ => g

theorem writeHome_fst (n : Net) (post a : Id) (ms : List Id) :
    (n.writeHome post a ms).1 = { n with
      graph := (n.graph.getFollowers a).1
      home := match (n.graph.getFollowers a).2 with | none => n.home | some l => n.home.append post (l ++ ms) } ∧
    (n.writeHome post a ms).2 = (n.graph.getFollowers a).2.isSome := by
  unfold Net.writeHome
  rcases h : n.graph.getFollowers a with ⟨g, _ | l⟩ <;> simp

theorem fetch_graph (n : Net) (r : Option (List Id)) : (n.fetch r).graph = n.graph := by cases r <;> rfl
theorem fetch_timelines (n : Net) (r : Option (List Id)) : (n.fetch r).timelines = n.timelines := by cases r <;> rfl
theorem fetch_home (n : Net) (r : Option (List Id)) : (n.fetch r).home = n.home := by cases r <;> rfl

theorem step_graph (n : Net) (o : Op) : (n.step o).1.graph = n.graph.step o := by
  cases o with
  | compose p a ms => simp only [Net.step, Net.compose, writeHome_fst]; rfl
  | userTimeline u a b => simp only [Net.step, fetch_graph]; rfl
  | homeTimeline u a b => simp only [Net.step, fetch_graph]; rfl
  | lose k => cases k <;> rfl
  | _ => rfl

theorem users_getFollowers (g : Graph) (u : Id) : (g.getFollowers u).1.users = g.users ∧ (g.getFollowers u).1.followees = g.followees := by
  unfold Graph.getFollowers
  split
  · exact ⟨rfl, rfl⟩
  · split <;> exact ⟨rfl, rfl⟩

theorem users_getFollowees (g : Graph) (u : Id) : (g.getFollowees u).1.users = g.users ∧ (g.getFollowees u).1.followers = g.followers := by
  unfold Graph.getFollowees
  split
  · exact ⟨rfl, rfl⟩
  · split <;> exact ⟨rfl, rfl⟩

theorem users_inserted (h : List Op) (u : Id) : (∃ i ∈ (after h).graph.users, i.user = u) ↔ Op.insertUser u ∈ h := by
  have key : ∀ h : List Op, u ∈ (after h).graph.users.map (·.user) ↔ Op.insertUser u ∈ h := by
    intro h
    induction h with
    | nil => simp [after, Net.init]
    | cons o h ih =>
      rw [after, step_graph]
      cases o with
      | insertUser x =>
        simp only [Graph.step, Graph.insertUser, List.map_append, List.mem_append, ih, List.map_cons, List.map_nil,
          List.mem_cons, Op.insertUser.injEq, List.not_mem_nil, or_false]
        exact Or.comm
      | follow x y =>
        simp only [Graph.step, Graph.follow]
        rw [map_updateFirst UserInfo.user, map_updateFirst UserInfo.user, ih]
        · simp
        · exact fun _ => rfl
        · exact fun _ => rfl
      | unfollow x y =>
        simp only [Graph.step, Graph.unfollow]
        rw [map_updateFirst UserInfo.user, map_updateFirst UserInfo.user, ih]
        · simp
        · exact fun _ => rfl
        · exact fun _ => rfl
      | followers x => simp only [Graph.step, users_getFollowers, ih]; simp
      | followees x => simp only [Graph.step, users_getFollowees, ih]; simp
      | compose p a ms => simp only [Graph.step, users_getFollowers, ih]; simp
      | lose k => cases k <;> simpa [Graph.step] using ih
      | _ => simpa [Graph.step] using ih
  rw [← key]
  simp

theorem followersOf_follow (u a v : Id) (h : List Op) :
    followersOf u (.follow a v :: h) = if v = u then followersOf u h ++ [a] else followersOf u h := by
  simp only [followersOf, edges]
  by_cases hv : v = u <;> simp [hv]

theorem followersOf_unfollow (u a v : Id) (h : List Op) :
    followersOf u (.unfollow a v :: h) = if v = u then (followersOf u h).filter (· ≠ a) else followersOf u h := by
  simp only [followersOf, edges, List.filter_filter]
  by_cases hv : v = u
  · subst hv
    rw [if_pos rfl, List.filter_map, List.filter_filter]
    congr 1
    apply List.filter_congr
    intro e _
    by_cases he : e.2 = v <;> by_cases hf : e.1 = a <;> simp [he, hf, Prod.ext_iff, Function.comp]
  · rw [if_neg hv]
    congr 1
    apply List.filter_congr
    intro e _
    by_cases he : e.2 = u
    · simp [he, Prod.ext_iff]
      exact .inr fun g => hv g.symm
    · simp [he]

theorem followeesOf_follow (u a v : Id) (h : List Op) :
    followeesOf u (.follow a v :: h) = if a = u then followeesOf u h ++ [v] else followeesOf u h := by
  simp only [followeesOf, edges]
  by_cases hv : a = u <;> simp [hv]

theorem followeesOf_unfollow (u a v : Id) (h : List Op) :
    followeesOf u (.unfollow a v :: h) = if a = u then (followeesOf u h).filter (· ≠ v) else followeesOf u h := by
  simp only [followeesOf, edges, List.filter_filter]
  by_cases hv : a = u
  · subst hv
    rw [if_pos rfl, List.filter_map, List.filter_filter]
    congr 1
    apply List.filter_congr
    intro e _
    by_cases he : e.1 = a <;> by_cases hf : e.2 = v <;> simp [he, hf, Prod.ext_iff, Function.comp]
  · rw [if_neg hv]
    congr 1
    apply List.filter_congr
    intro e _
    by_cases he : e.1 = u
    · simp [he, Prod.ext_iff]
      exact .inl fun g => hv g.symm
    · simp [he]

/-- Somebody followed the user, or tried to stop. -/
def touched (u : Id) (h : List Op) : Bool := h.any fun o => match o with
  | .follow _ x => x == u
  | .unfollow _ x => x == u
  | _ => false

theorem known_iff (u : Id) (h : List Op) : known u h = true ↔ Op.insertUser u ∈ h ∨ touched u h = true := by
  induction h with
  | nil => simp [known, touched]
  | cons o h ih =>
    simp only [known, touched, List.any_cons, Bool.or_eq_true, List.mem_cons] at ih ⊢
    rw [ih]
    cases o <;> simp <;> grind

theorem known_cons (u : Id) (o : Op) (h : List Op) (hk : known u h = true) : known u (o :: h) = true := by
  simp only [known, List.any_cons, Bool.or_eq_true] at hk ⊢
  exact .inr hk

/-- The invariant of the followers of a user. -/
def FollowersOk (u : Id) (h : List Op) (g : Graph) : Prop :=
  match g.followers u with
  | some l => l = followersOf u h ∧ known u h = true
  | none => followersOf u h = [] ∧ touched u h = false ∧ ∀ i ∈ g.users, i.user = u → i.followers = []

theorem FollowersOk_holds (u : Id) (h : List Op) (hl : Op.lose (.followers u) ∉ h) : FollowersOk u h (after h).graph := by
  induction h with
  | nil => exact ⟨rfl, rfl, by simp [after, Net.init]⟩
  | cons o h ih =>
    have hl' : Op.lose (.followers u) ∉ h := fun g => hl (by simp [g])
    have ih := ih hl'
    have ins := users_inserted h u
    rw [after, step_graph]
    generalize (after h).graph = g at ih ins
    -- a call that changes nothing for the user
    have same : ∀ (o : Op) (g' : Graph), g'.followers u = g.followers u → (∀ i ∈ g'.users, i.user = u → i.followers = [] ∨
        (∃ j ∈ g.users, j.user = u ∧ i.followers = j.followers)) → followersOf u (o :: h) = followersOf u h →
        touched u (o :: h) = touched u h → FollowersOk u (o :: h) g' := by
      intro o g' h1 h2 h3 h4
      unfold FollowersOk at ih ⊢
      rw [h1, h3, h4]
      cases hg : g.followers u with
      | some l => rw [hg] at ih; exact ⟨ih.1, known_cons u o h ih.2⟩
      | none =>
        rw [hg] at ih
        refine ⟨ih.1, ih.2.1, fun i hi hu => ?_⟩
        rcases h2 i hi hu with e | ⟨j, hj, e1, e2⟩
        · exact e
        · rw [e2]
          exact ih.2.2 j hj e1
    have self : ∀ i ∈ g.users, i.user = u → i.followers = [] ∨ ∃ j ∈ g.users, j.user = u ∧ i.followers = j.followers :=
      fun i hi e => .inr ⟨i, hi, e, rfl⟩
    -- reading
    have get : ∀ (o : Op) (x : Id), followersOf u (o :: h) = followersOf u h → touched u (o :: h) = touched u h →
        FollowersOk u (o :: h) (g.getFollowers x).1 := by
      intro o x h3 h4
      by_cases hx : x = u
      · subst hx
        unfold Graph.getFollowers
        cases hg : g.followers x with
        | some l => exact same _ _ rfl self h3 h4
        | none =>
          cases hf : g.users.find? (·.user = x) with
          | none => exact same _ _ rfl self h3 h4
          | some info =>
            unfold FollowersOk at ih
            rw [hg] at ih
            have hm := List.mem_of_find?_eq_some hf
            have hu : info.user = x := by simpa using List.find?_some hf
            have e1 : info.followers = [] := ih.2.2 info hm hu
            simp only [FollowersOk, Map.put_self, e1, h3, List.map_nil]
            exact ⟨ih.1.symm, known_cons x o h ((known_iff x h).2 (.inl (ins.1 ⟨info, hm, hu⟩)))⟩
      · refine same _ _ ?_ (by rw [(users_getFollowers g x).1]; exact self) h3 h4
        unfold Graph.getFollowers
        split
        · rfl
        · split
          · rfl
          · exact Map.put_other _ _ (Ne.symm hx)
    have getd : (g.followers u).getD [] = followersOf u h := by
      unfold FollowersOk at ih
      cases hg : g.followers u with
      | some l => rw [hg] at ih; exact ih.1
      | none => rw [hg] at ih; exact ih.1.symm
    cases o with
    | insertUser x =>
      refine same _ _ rfl ?_ rfl (by simp [touched])
      intro i hi e
      rcases List.mem_append.1 hi with hi | hi
      · exact self i hi e
      · rw [List.mem_singleton.1 hi]
        exact .inl rfl
    | follow a v =>
      by_cases hv : v = u
      · subst hv
        simp only [FollowersOk, Graph.step, Graph.follow, Map.put_self, followersOf_follow, if_true, getd]
        exact ⟨trivial, by simp [known]⟩
      · refine same _ _ (Map.put_other _ _ (Ne.symm hv)) ?_ (by rw [followersOf_follow, if_neg hv]) (by simp [touched, hv])
        intro i hi e
        rcases mem_updateFirst hi with hi | ⟨j, hj, hp, rfl⟩
        · rcases mem_updateFirst hi with hi | ⟨j, hj, hp, rfl⟩
          · exact self i hi e
          · exact .inr ⟨j, hj, e, rfl⟩
        · exact absurd ((of_decide_eq_true hp).symm.trans e) hv
    | unfollow a v =>
      by_cases hv : v = u
      · subst hv
        simp only [FollowersOk, Graph.step, Graph.unfollow, Map.put_self, followersOf_unfollow, if_true, getd]
        exact ⟨trivial, by simp [known]⟩
      · refine same _ _ (Map.put_other _ _ (Ne.symm hv)) ?_ (by rw [followersOf_unfollow, if_neg hv]) (by simp [touched, hv])
        intro i hi e
        rcases mem_updateFirst hi with hi | ⟨j, hj, hp, rfl⟩
        · rcases mem_updateFirst hi with hi | ⟨j, hj, hp, rfl⟩
          · exact self i hi e
          · exact .inr ⟨j, hj, e, rfl⟩
        · exact absurd ((of_decide_eq_true hp).symm.trans e) hv
    | followers x => exact get _ x rfl (by simp [touched])
    | followees x =>
      have hs : (g.step (.followees x)).users = g.users := (users_getFollowees g x).1
      exact same _ _ (congrFun (users_getFollowees g x).2 u) (hs.symm ▸ self) rfl (by simp [touched])
    | compose p a ms => exact get _ a rfl (by simp [touched])
    | lose k =>
      cases k with
      | followers x =>
        have hx : u ≠ x := fun e => hl (by simp [e])
        exact same _ _ (Map.drop_other _ hx) self rfl (by simp [touched])
      | _ => exact same _ _ rfl self rfl (by simp [touched])
    | _ => exact same _ _ rfl self rfl (by simp [touched])

theorem getFollowers_spec (u : Id) (h : List Op) (hl : Op.lose (.followers u) ∉ h) :
    ((after h).graph.getFollowers u).2 = if known u h = true then some (followersOf u h) else none := by
  have inv := FollowersOk_holds u h hl
  have ins := users_inserted h u
  unfold FollowersOk at inv
  unfold Graph.getFollowers
  cases hg : (after h).graph.followers u with
  | some l =>
    rw [hg] at inv
    simp only at inv ⊢
    rw [if_pos inv.2, inv.1]
  | none =>
    rw [hg] at inv
    simp only at inv ⊢
    obtain ⟨i1, i2, i3⟩ := inv
    have hk : known u h = true ↔ ∃ i ∈ (after h).graph.users, i.user = u := by
      rw [known_iff, i2, ins]
      simp
    cases hf : (after h).graph.users.find? (·.user = u) with
    | none =>
      have : ¬ known u h = true := by
        rw [hk]
        rintro ⟨i, hi, e⟩
        have := List.find?_eq_none.1 hf i hi
        exact this (by simpa using e)
      rw [if_neg this]
    | some info =>
      have hm := List.mem_of_find?_eq_some hf
      have hu : info.user = u := by simpa using List.find?_some hf
      rw [if_pos (hk.2 ⟨info, hm, hu⟩), i1]
      simp only [i3 info hm hu, List.map_nil]

/-- The user followed somebody, or tried to stop. -/
def touchedFollower (u : Id) (h : List Op) : Bool := h.any fun o => match o with
  | .follow x _ => x == u
  | .unfollow x _ => x == u
  | _ => false

theorem knownFollower_iff (u : Id) (h : List Op) : knownFollower u h = true ↔ Op.insertUser u ∈ h ∨ touchedFollower u h = true := by
  induction h with
  | nil => simp [knownFollower, touchedFollower]
  | cons o h ih =>
    simp only [knownFollower, touchedFollower, List.any_cons, Bool.or_eq_true, List.mem_cons] at ih ⊢
    rw [ih]
    cases o <;> simp <;> grind

theorem knownFollower_cons (u : Id) (o : Op) (h : List Op) (hk : knownFollower u h = true) : knownFollower u (o :: h) = true := by
  simp only [knownFollower, List.any_cons, Bool.or_eq_true] at hk ⊢
  exact .inr hk

/-- The invariant of the followees of a user. -/
def FolloweesOk (u : Id) (h : List Op) (g : Graph) : Prop :=
  match g.followees u with
  | some l => l = followeesOf u h ∧ knownFollower u h = true
  | none => followeesOf u h = [] ∧ touchedFollower u h = false ∧ ∀ i ∈ g.users, i.user = u → i.followees = []

theorem FolloweesOk_holds (u : Id) (h : List Op) (hl : Op.lose (.followees u) ∉ h) : FolloweesOk u h (after h).graph := by
  induction h with
  | nil => exact ⟨rfl, rfl, by simp [after, Net.init]⟩
  | cons o h ih =>
    have hl' : Op.lose (.followees u) ∉ h := fun g => hl (by simp [g])
    have ih := ih hl'
    have ins := users_inserted h u
    rw [after, step_graph]
    generalize (after h).graph = g at ih ins
    -- a call that changes nothing for the user
    have same : ∀ (o : Op) (g' : Graph), g'.followees u = g.followees u → (∀ i ∈ g'.users, i.user = u → i.followees = [] ∨
        (∃ j ∈ g.users, j.user = u ∧ i.followees = j.followees)) → followeesOf u (o :: h) = followeesOf u h →
        touchedFollower u (o :: h) = touchedFollower u h → FolloweesOk u (o :: h) g' := by
      intro o g' h1 h2 h3 h4
      unfold FolloweesOk at ih ⊢
      rw [h1, h3, h4]
      cases hg : g.followees u with
      | some l => rw [hg] at ih; exact ⟨ih.1, knownFollower_cons u o h ih.2⟩
      | none =>
        rw [hg] at ih
        refine ⟨ih.1, ih.2.1, fun i hi hu => ?_⟩
        rcases h2 i hi hu with e | ⟨j, hj, e1, e2⟩
        · exact e
        · rw [e2]
          exact ih.2.2 j hj e1
    have self : ∀ i ∈ g.users, i.user = u → i.followees = [] ∨ ∃ j ∈ g.users, j.user = u ∧ i.followees = j.followees :=
      fun i hi e => .inr ⟨i, hi, e, rfl⟩
    -- reading
    have get : ∀ (o : Op) (x : Id), followeesOf u (o :: h) = followeesOf u h → touchedFollower u (o :: h) = touchedFollower u h →
        FolloweesOk u (o :: h) (g.getFollowees x).1 := by
      intro o x h3 h4
      by_cases hx : x = u
      · subst hx
        unfold Graph.getFollowees
        cases hg : g.followees x with
        | some l => exact same _ _ rfl self h3 h4
        | none =>
          cases hf : g.users.find? (·.user = x) with
          | none => exact same _ _ rfl self h3 h4
          | some info =>
            unfold FolloweesOk at ih
            rw [hg] at ih
            have hm := List.mem_of_find?_eq_some hf
            have hu : info.user = x := by simpa using List.find?_some hf
            have e1 : info.followees = [] := ih.2.2 info hm hu
            simp only [FolloweesOk, Map.put_self, e1, h3, List.map_nil]
            exact ⟨ih.1.symm, knownFollower_cons x o h ((knownFollower_iff x h).2 (.inl (ins.1 ⟨info, hm, hu⟩)))⟩
      · refine same _ _ ?_ (by rw [(users_getFollowees g x).1]; exact self) h3 h4
        unfold Graph.getFollowees
        split
        · rfl
        · split
          · rfl
          · exact Map.put_other _ _ (Ne.symm hx)
    have getd : (g.followees u).getD [] = followeesOf u h := by
      unfold FolloweesOk at ih
      cases hg : g.followees u with
      | some l => rw [hg] at ih; exact ih.1
      | none => rw [hg] at ih; exact ih.1.symm
    cases o with
    | insertUser x =>
      refine same _ _ rfl ?_ rfl (by simp [touchedFollower])
      intro i hi e
      rcases List.mem_append.1 hi with hi | hi
      · exact self i hi e
      · rw [List.mem_singleton.1 hi]
        exact .inl rfl
    | follow a v =>
      by_cases hv : a = u
      · subst hv
        simp only [FolloweesOk, Graph.step, Graph.follow, Map.put_self, followeesOf_follow, if_true, getd]
        exact ⟨trivial, by simp [knownFollower]⟩
      · refine same _ _ (Map.put_other _ _ (Ne.symm hv)) ?_ (by rw [followeesOf_follow, if_neg hv]) (by simp [touchedFollower, hv])
        intro i hi e
        rcases mem_updateFirst hi with hi | ⟨j, hj, hp, rfl⟩
        · rcases mem_updateFirst hi with hi | ⟨j, hj, hp, rfl⟩
          · exact self i hi e
          · exact absurd ((of_decide_eq_true hp).symm.trans e) hv
        · rcases mem_updateFirst hj with hj | ⟨k, hk, hq, rfl⟩
          · exact .inr ⟨j, hj, e, rfl⟩
          · exact absurd ((of_decide_eq_true hq).symm.trans e) hv
    | unfollow a v =>
      by_cases hv : a = u
      · subst hv
        simp only [FolloweesOk, Graph.step, Graph.unfollow, Map.put_self, followeesOf_unfollow, if_true, getd]
        exact ⟨trivial, by simp [knownFollower]⟩
      · refine same _ _ (Map.put_other _ _ (Ne.symm hv)) ?_ (by rw [followeesOf_unfollow, if_neg hv]) (by simp [touchedFollower, hv])
        intro i hi e
        rcases mem_updateFirst hi with hi | ⟨j, hj, hp, rfl⟩
        · rcases mem_updateFirst hi with hi | ⟨j, hj, hp, rfl⟩
          · exact self i hi e
          · exact absurd ((of_decide_eq_true hp).symm.trans e) hv
        · rcases mem_updateFirst hj with hj | ⟨k, hk, hq, rfl⟩
          · exact .inr ⟨j, hj, e, rfl⟩
          · exact absurd ((of_decide_eq_true hq).symm.trans e) hv
    | followees x => exact get _ x rfl (by simp [touchedFollower])
    | followers x =>
      have hs : (g.step (.followers x)).users = g.users := (users_getFollowers g x).1
      exact same _ _ (congrFun (users_getFollowers g x).2 u) (hs.symm ▸ self) rfl (by simp [touchedFollower])
    | compose p a ms => 
      have hs : (g.step (.compose p a ms)).users = g.users := (users_getFollowers g a).1
      exact same _ _ (congrFun (users_getFollowers g a).2 u) (hs.symm ▸ self) rfl (by simp [touchedFollower])
    | lose k =>
      cases k with
      | followees x =>
        have hx : u ≠ x := fun e => hl (by simp [e])
        exact same _ _ (Map.drop_other _ hx) self rfl (by simp [touchedFollower])
      | _ => exact same _ _ rfl self rfl (by simp [touchedFollower])
    | _ => exact same _ _ rfl self rfl (by simp [touchedFollower])

theorem getFollowees_spec (u : Id) (h : List Op) (hl : Op.lose (.followees u) ∉ h) :
    ((after h).graph.getFollowees u).2 = if knownFollower u h = true then some (followeesOf u h) else none := by
  have inv := FolloweesOk_holds u h hl
  have ins := users_inserted h u
  unfold FolloweesOk at inv
  unfold Graph.getFollowees
  cases hg : (after h).graph.followees u with
  | some l =>
    rw [hg] at inv
    simp only at inv ⊢
    rw [if_pos inv.2, inv.1]
  | none =>
    rw [hg] at inv
    simp only at inv ⊢
    obtain ⟨i1, i2, i3⟩ := inv
    have hk : knownFollower u h = true ↔ ∃ i ∈ (after h).graph.users, i.user = u := by
      rw [knownFollower_iff, i2, ins]
      simp
    cases hf : (after h).graph.users.find? (·.user = u) with
    | none =>
      have : ¬ knownFollower u h = true := by
        rw [hk]
        rintro ⟨i, hi, e⟩
        have := List.find?_eq_none.1 hf i hi
        exact this (by simpa using e)
      rw [if_neg this]
    | some info =>
      have hm := List.mem_of_find?_eq_some hf
      have hu : info.user = u := by simpa using List.find?_some hf
      rw [if_pos (hk.2 ⟨info, hm, hu⟩), i1]
      simp only [i3 info hm hu, List.map_nil]

/-! ### User timelines -/

/-- What a call does to the user timelines. -/
def Timelines.step (t : Timelines) : Op → Timelines
  | .compose p a _ => (t.write p.id a).1
  | .userTimeline u start stop => (t.read u start stop).1
  | .lose (.timeline u) => { t with cache := t.cache.drop u }
  | _ => t

theorem step_timelines (n : Net) (o : Op) : (n.step o).1.timelines = n.timelines.step o := by
  cases o with
  | compose p a ms => simp only [Net.step, Net.compose, writeHome_fst]; rfl
  | userTimeline u a b => simp only [Net.step, fetch_timelines]; rfl
  | homeTimeline u a b => simp only [Net.step, fetch_timelines]; rfl
  | lose k => cases k <;> rfl
  | _ => rfl

theorem mem_store {t : Timelines} {post u : Id} {d : Id × List Id} (h : d ∈ t.store post u) :
    d ∈ t.db ∨ (d.1 = u ∧ (d.2 = [post] ∨ ∃ e ∈ t.db, e.1 = u ∧ d.2 = post :: e.2)) := by
  unfold Timelines.store at h
  split at h
  · obtain ⟨e, he, rfl⟩ := List.mem_map.1 h
    by_cases hu : e.1 = u
    · rw [if_pos hu]
      exact .inr ⟨rfl, .inr ⟨e, he, hu, rfl⟩⟩
    · rw [if_neg hu]
      exact .inl he
  · rcases List.mem_append.1 h with h | h
    · exact .inl h
    · rw [List.mem_singleton.1 h]
      exact .inr ⟨rfl, .inl rfl⟩

theorem store_has (t : Timelines) (post u : Id) : ∃ d ∈ t.store post u, d.1 = u := by
  unfold Timelines.store
  split
  · next h =>
    obtain ⟨e, he, hu⟩ := List.any_eq_true.1 h
    have hu : e.1 = u := by simpa using hu
    exact ⟨(u, post :: e.2), List.mem_map.2 ⟨e, he, by rw [if_pos hu]⟩, rfl⟩
  · exact ⟨(u, [post]), by simp, rfl⟩

theorem store_keeps {t : Timelines} {post u : Id} {d : Id × List Id} (hd : d ∈ t.db) (hu : d.1 ≠ u) : d ∈ t.store post u := by
  unfold Timelines.store
  split
  · exact List.mem_map.2 ⟨d, hd, by rw [if_neg hu]⟩
  · simp [hd]

theorem read_cache_other (t : Timelines) {u x : Id} (a b : Int) (hx : u ≠ x) :
    (t.read x a b).1.cache u = t.cache u ∧ (t.read x a b).1.db = t.db := by
  unfold Timelines.read
  split
  · exact ⟨rfl, rfl⟩
  · split
    · exact ⟨rfl, rfl⟩
    · split
      · exact ⟨rfl, rfl⟩
      · exact ⟨rfl, rfl⟩
      · exact ⟨Map.put_other _ _ hx, rfl⟩

/-- The invariant of the timeline of a user. -/
structure TimelineOk (u : Id) (h : List Op) (t : Timelines) : Prop where
  cached : t.cache u = if postsOf u h = [] then none else some (.infos (postsOf u h))
  doc : (∃ d ∈ t.db, d.1 = u) ↔ postsOf u h ≠ []
  known : ∀ d ∈ t.db, d.1 = u → ∀ p ∈ d.2, p ∈ postsOf u h

theorem TimelineOk.read {u : Id} {h : List Op} {t : Timelines} (ok : TimelineOk u h t) (start stop : Int) :
    t.read u start stop = (t, if stop ≤ start ∨ start < 0 then some [] else if postsOf u h = [] then none else some (postsOf u h)) := by
  unfold Timelines.read
  by_cases hr : stop ≤ start ∨ start < 0
  · rw [if_pos hr, if_pos hr]
  · rw [if_neg hr, if_neg hr]
    by_cases hp : postsOf u h = []
    · have hc : t.cached u = some [] := by
        unfold Timelines.cached
        rw [ok.cached, if_pos hp]
      have hf : t.db.find? (·.1 = u) = none := by
        rw [List.find?_eq_none]
        intro d hd e
        exact ok.doc.1 ⟨d, hd, by simpa using e⟩ hp
      have ho : t.older u start stop [] = none := by
        unfold Timelines.older
        rw [if_pos (by simp only [List.length_nil]; omega), hf]
      rw [hc, if_pos hp]
      simp only [ho]
    · have hc : t.cached u = some (postsOf u h) := by
        unfold Timelines.cached
        rw [ok.cached, if_neg hp]
      have ho : t.older u start stop (postsOf u h) = some [] := by
        unfold Timelines.older
        split
        · cases hf : t.db.find? (·.1 = u) with
          | none =>
            exfalso
            obtain ⟨d, hd, e⟩ := ok.doc.2 hp
            exact absurd (List.find?_eq_none.1 hf d hd) (by simp [e])
          | some d =>
            simp only [Option.some.injEq, List.filter_eq_nil_iff]
            intro p hpm
            have := ok.known d (List.mem_of_find?_eq_some hf) (by simpa using List.find?_some hf) p (List.mem_of_mem_take hpm)
            simp [this]
        · rfl
      rw [hc, if_neg hp]
      simp only [ho]

theorem timelineOk (u : Id) (h : List Op) (hl : Op.lose (.timeline u) ∉ h) : TimelineOk u h (after h).timelines := by
  induction h with
  | nil => exact ⟨rfl, by simp [after, Net.init, postsOf], by simp [after, Net.init]⟩
  | cons o h ih =>
    have ih := ih (fun g => hl (by simp [g]))
    rw [after, step_timelines]
    generalize (after h).timelines = t at ih
    have same : ∀ (o : Op) (t' : Timelines), t'.cache u = t.cache u → t'.db = t.db → postsOf u (o :: h) = postsOf u h →
        TimelineOk u (o :: h) t' := fun o t' h1 h2 h3 =>
      ⟨by rw [h1, h3, ih.cached], by rw [h2, h3, ih.doc], by rw [h2, h3]; exact ih.known⟩
    cases o with
    | compose p a ms =>
      by_cases ha : a = u
      · subst ha
        have hc : t.cached a = some (postsOf a h) := by
          unfold Timelines.cached
          rw [ih.cached]
          by_cases hp : postsOf a h = []
          · rw [if_pos hp, hp]
          · rw [if_neg hp]
        have hs : t.step (.compose p a ms) = ⟨t.store p.id a, t.cache.put a (.infos (postsOf a h ++ [p.id]))⟩ := by
          simp only [Timelines.step, Timelines.write, hc]
        have hp : postsOf a (.compose p a ms :: h) = postsOf a h ++ [p.id] := by simp [postsOf]
        rw [hs]
        refine ⟨?_, ?_, ?_⟩
        · simp only [Map.put_self, hp]
          rw [if_neg (by simp)]
        · rw [hp]
          exact ⟨fun _ => by simp, fun _ => store_has t p.id a⟩
        · intro d hd e q hq
          rw [hp]
          rcases mem_store hd with hd | ⟨_, e2 | ⟨e', he', e1, e2⟩⟩
          · exact List.mem_append_left _ (ih.known d hd e q hq)
          · rw [e2] at hq
            exact List.mem_append_right _ hq
          · rw [e2] at hq
            rcases List.mem_cons.1 hq with rfl | hq
            · simp
            · exact List.mem_append_left _ (ih.known e' he' e1 q hq)
      · have hp : postsOf u (.compose p a ms :: h) = postsOf u h := by simp [postsOf, ha]
        have hw : (t.write p.id a).1.cache u = t.cache u ∧ (t.write p.id a).1.db = t.store p.id a := by
          unfold Timelines.write
          split
          · exact ⟨rfl, rfl⟩
          · exact ⟨Map.put_other _ _ (Ne.symm ha), rfl⟩
        refine ⟨by rw [hp, Timelines.step, hw.1, ih.cached], ?_, ?_⟩
        · rw [hp, Timelines.step, hw.2, ← ih.doc]
          constructor
          · rintro ⟨d, hd, e⟩
            rcases mem_store hd with hd | ⟨e1, _⟩
            · exact ⟨d, hd, e⟩
            · exact absurd (e1.symm.trans e) ha
          · rintro ⟨d, hd, e⟩
            exact ⟨d, store_keeps hd (fun g => ha (g.symm.trans e)), e⟩
        · intro d hd e
          rw [Timelines.step, hw.2] at hd
          rw [hp]
          rcases mem_store hd with hd | ⟨e1, _⟩
          · exact ih.known d hd e
          · exact absurd (e1.symm.trans e) ha
    | userTimeline x a b =>
      by_cases hx : u = x
      · subst hx
        have hs : t.step (.userTimeline u a b) = t := by
          rw [Timelines.step, ih.read]
        rw [hs]
        exact same _ _ rfl rfl rfl
      · exact same _ _ (read_cache_other t a b hx).1 (read_cache_other t a b hx).2 rfl
    | lose k =>
      cases k with
      | timeline x =>
        have hx : u ≠ x := fun e => hl (by simp [e])
        exact same _ _ (Map.drop_other _ hx) rfl rfl
      | _ => exact same _ _ rfl rfl rfl
    | _ => exact same _ _ rfl rfl rfl

/-! ### Home timelines -/

/-- What a call does to the home timelines. -/
def homeStep (m : Map (List Id)) (g : Graph) : Op → Map (List Id)
  | .compose p a ms => match (g.getFollowers a).2 with | none => m | some l => m.append p.id (l ++ ms)
  | .lose (.home u) => m.drop u
  | _ => m

theorem step_home (n : Net) (o : Op) : (n.step o).1.home = homeStep n.home n.graph o := by
  cases o with
  | compose p a ms => simp only [Net.step, Net.compose, writeHome_fst]; rfl
  | userTimeline u a b => simp only [Net.step, fetch_home]; rfl
  | homeTimeline u a b => simp only [Net.step, fetch_home]; rfl
  | lose k => cases k <;> rfl
  | _ => rfl

theorem mem_followersOf (u v : Id) (h : List Op) : v ∈ followersOf u h ↔ (v, u) ∈ edges h := by
  simp only [followersOf, List.mem_map, List.mem_filter, decide_eq_true_eq]
  constructor
  · rintro ⟨⟨a, b⟩, ⟨he, rfl⟩, rfl⟩
    exact he
  · intro he
    exact ⟨(v, u), ⟨he, rfl⟩, rfl⟩

theorem mem_followeesOf (u v : Id) (h : List Op) : v ∈ followeesOf u h ↔ (u, v) ∈ edges h := by
  simp only [followeesOf, List.mem_map, List.mem_filter, decide_eq_true_eq]
  constructor
  · rintro ⟨⟨a, b⟩, ⟨he, rfl⟩, rfl⟩
    exact he
  · intro he
    exact ⟨(u, v), ⟨he, rfl⟩, rfl⟩

theorem home_spec (u : Id) (h : List Op) (hl : Op.lose (.home u) ∉ h) (hf : ∀ a, Op.lose (.followers a) ∉ h) :
    ((after h).home u).getD [] = newsOf u h := by
  induction h with
  | nil => rfl
  | cons o h ih =>
    have ih := ih (fun g => hl (by simp [g])) (fun a g => hf a (by simp [g]))
    rw [after, step_home]
    cases o with
    | compose p a ms =>
      have hg := getFollowers_spec a h (fun g => hf a (by simp [g]))
      simp only [homeStep, newsOf, hg]
      by_cases hk : known a h = true
      · simp only [hk, if_true, true_and]
        unfold Map.append
        by_cases hm : u ∈ ms ∨ (u, a) ∈ edges h
        · have hc : (followersOf a h ++ ms).contains u = true := by
            simp only [List.contains_eq_mem, List.mem_append, mem_followersOf, decide_eq_true_eq]
            exact hm.symm
          rw [if_pos hc, if_pos hm, Option.getD_some, ih]
        · have hc : ¬ (followersOf a h ++ ms).contains u = true := by
            simp only [List.contains_eq_mem, List.mem_append, mem_followersOf, decide_eq_true_eq]
            exact fun g => hm g.symm
          rw [if_neg hc, if_neg hm, ih]
      · rw [if_neg hk, if_neg (fun g => hk g.1)]
        exact ih
    | lose k =>
      cases k with
      | home x =>
        have hx : u ≠ x := fun e => hl (by simp [e])
        simp only [homeStep, Map.drop_other _ hx, ih, newsOf]
      | _ => exact ih
    | _ => exact ih

/-! ### Posts -/

/-- What a call does to the posts. -/
theorem step_posts (n : Net) (o : Op) :
    (∃ p a ms, o = .compose p a ms ∧ (n.step o).1.posts = n.posts.store p) ∨
    ((∀ p a ms, o ≠ .compose p a ms) ∧ ((∃ ids, (n.step o).1.posts = (n.posts.readMany ids).1) ∨ (n.step o).1.posts = n.posts ∨
      ∃ k, (n.step o).1.posts = { n.posts with cache := n.posts.cache.drop k })) := by
  cases o with
  | compose p a ms =>
    refine .inl ⟨p, a, ms, rfl, ?_⟩
    simp only [Net.step, Net.compose, writeHome_fst]
  | userTimeline u a b =>
    refine .inr ⟨by simp, ?_⟩
    simp only [Net.step]
    cases (n.timelines.read u a b).2 with
    | none => exact .inr (.inl rfl)
    | some l => exact .inl ⟨l, rfl⟩
  | homeTimeline u a b => exact .inr ⟨by simp, .inl ⟨_, rfl⟩⟩
  | readPosts ids => exact .inr ⟨by simp, .inl ⟨ids, rfl⟩⟩
  | lose k =>
    refine .inr ⟨by simp, ?_⟩
    cases k with
    | post id => exact .inr (.inr ⟨id, rfl⟩)
    | _ => exact .inr (.inl rfl)
  | _ => exact .inr ⟨by simp, .inr (.inl rfl)⟩

/-- The invariant of the posts. -/
structure PostsOk (all : List Post) (s : Posts) : Prop where
  db : s.db = all
  cached : ∀ k p, s.cache k = some p → p ∈ all ∧ p.id = k

theorem foldl_put (l : List Post) (c : Map Post) (k : Id) (p : Post) (h : l.foldl (fun c p => c.put p.id p) c k = some p) :
    c k = some p ∨ (p ∈ l ∧ p.id = k) := by
  induction l generalizing c with
  | nil => exact .inl h
  | cons q l ih =>
    rcases ih _ h with h | ⟨h1, h2⟩
    · by_cases hk : k = q.id
      · subst hk
        simp only [Map.put_self] at h
        cases h
        exact .inr ⟨by simp, rfl⟩
      · simp only [Map.put_other _ _ hk] at h
        exact .inl h
    · exact .inr ⟨by simp [h1], h2⟩

theorem postsOk (h : List Op) : PostsOk (stored h) (after h).posts := by
  induction h with
  | nil => exact ⟨rfl, by simp [after, Net.init]⟩
  | cons o h ih =>
    have other : (∀ p a ms, o ≠ .compose p a ms) → stored (o :: h) = stored h := by
      intro hn
      cases o with
      | compose p a ms => exact absurd rfl (hn p a ms)
      | _ => rfl
    rw [after]
    rcases step_posts (after h) o with ⟨p, a, ms, rfl, e⟩ | ⟨hn, e⟩
    · rw [e]
      refine ⟨by simp only [Posts.store, ih.db, stored], fun k q hq => ?_⟩
      have := ih.cached k q hq
      exact ⟨by simp [stored, this.1], this.2⟩
    · rw [other hn]
      rcases e with ⟨ids, e⟩ | e | ⟨k, e⟩
      · rw [e]
        refine ⟨ih.db, fun k p hp => ?_⟩
        rcases foldl_put _ _ _ _ hp with hp | ⟨h1, h2⟩
        · exact ih.cached k p hp
        · exact ⟨ih.db ▸ (List.mem_filter.1 h1).1, h2⟩
      · rw [e]
        exact ih
      · rw [e]
        refine ⟨ih.db, fun x p hp => ?_⟩
        simp only [Map.drop] at hp
        split at hp
        · cases hp
        · exact ih.cached x p hp

/-- Posts with the same identifier are the same. -/
theorem unique_id {l : List Post} (hn : (l.map (·.id)).Nodup) {p q : Post} (hp : p ∈ l) (hq : q ∈ l) (e : p.id = q.id) : p = q := by
  induction l with
  | nil => cases hp
  | cons x l ih =>
    rw [List.map_cons, List.nodup_cons] at hn
    rcases List.mem_cons.1 hp with hp' | hp' <;> rcases List.mem_cons.1 hq with hq' | hq'
    · exact hp'.trans hq'.symm
    · exact absurd (List.mem_map.2 ⟨q, hq', by rw [← hp', e]⟩) hn.1
    · exact absurd (List.mem_map.2 ⟨p, hp', by rw [← hq', e]⟩) hn.1
    · exact ih hn.2 hp' hq'

/-! ### What timelines show is stored -/

/-- The post was made. -/
def Made (h : List Op) (id : Id) : Prop := ∃ p ∈ stored h, p.id = id

/-- Every identifier in the timelines is the one of a post. -/
def Timelines.Shown (h : List Op) (t : Timelines) : Prop :=
  (∀ d ∈ t.db, ∀ p ∈ d.2, Made h p) ∧ (∀ u l, t.cache u = some (.infos l) → ∀ p ∈ l, Made h p)

theorem older_shown {h : List Op} {t : Timelines} (ht : t.Shown h) {u : Id} {a b : Int} {l m : List Id} (ho : t.older u a b l = some m) :
    ∀ p ∈ m, Made h p := by
  unfold Timelines.older at ho
  split at ho
  · split at ho
    · cases ho
    · next d hd =>
      cases ho
      intro p hp
      exact ht.1 d (List.mem_of_find?_eq_some hd) p (List.mem_of_mem_take (List.mem_filter.1 hp).1)
  · cases ho
    intro p hp
    cases hp

theorem read_shown {h : List Op} {t : Timelines} (ht : t.Shown h) {u : Id} {a b : Int} {m : List Id} (hr : (t.read u a b).2 = some m) :
    ∀ p ∈ m, Made h p := by
  unfold Timelines.read at hr
  split at hr
  · cases hr
    intro p hp
    cases hp
  · split at hr
    · cases hr
    · next l hl =>
      have hc : ∀ p ∈ l, Made h p := by
        unfold Timelines.cached at hl
        split at hl
        · cases hl
          intro p hp
          cases hp
        · next l' hl' =>
          cases hl
          exact ht.2 u _ hl'
        · cases hl
      split at hr
      · cases hr
      · cases hr
        exact hc
      · next p new ho =>
        cases hr
        intro q hq
        rcases List.mem_append.1 hq with hq | hq
        · exact older_shown ht ho q hq
        · exact hc q hq

theorem Made.cons {h : List Op} {id : Id} (hm : Made h id) (o : Op) : Made (o :: h) id := by
  obtain ⟨p, hp, e⟩ := hm
  cases o with
  | compose q a ms => exact ⟨p, by simp [stored, hp], e⟩
  | _ => exact ⟨p, hp, e⟩

theorem shownOk (h : List Op) : (after h).timelines.Shown h ∧ ∀ u, ∀ p ∈ ((after h).home u).getD [], Made h p := by
  induction h with
  | nil => exact ⟨⟨by simp [after, Net.init], by simp [after, Net.init]⟩, by simp [after, Net.init]⟩
  | cons o h ih =>
    obtain ⟨ht, hh⟩ := ih
    have keep : ∀ (t : Timelines), t.Shown h → t.Shown (o :: h) := fun t ht =>
      ⟨fun d hd p hp => (ht.1 d hd p hp).cons o, fun u l hl p hp => (ht.2 u l hl p hp).cons o⟩
    constructor
    · rw [after, step_timelines]
      cases o with
      | compose p a ms =>
        have made : Made (.compose p a ms :: h) p.id := ⟨p, by simp [stored], rfl⟩
        have hdb : ∀ d ∈ (after h).timelines.store p.id a, ∀ q ∈ d.2, Made (.compose p a ms :: h) q := by
          intro d hd q hq
          rcases mem_store hd with hd | ⟨_, e2 | ⟨e', he', _, e2⟩⟩
          · exact (ht.1 d hd q hq).cons _
          · rw [e2, List.mem_singleton] at hq
            exact hq ▸ made
          · rw [e2] at hq
            rcases List.mem_cons.1 hq with rfl | hq
            · exact made
            · exact (ht.1 e' he' q hq).cons _
        simp only [Timelines.step, Timelines.write]
        cases hc : (after h).timelines.cached a with
        | none => exact ⟨hdb, (keep _ ht).2⟩
        | some l =>
          refine ⟨hdb, fun u m hm q hq => ?_⟩
          by_cases hu : u = a
          · subst hu
            simp only [Map.put_self, Option.some.injEq, Entry.infos.injEq] at hm
            rw [← hm] at hq
            rcases List.mem_append.1 hq with hq | hq
            · unfold Timelines.cached at hc
              split at hc
              · cases hc
                cases hq
              · next l' hl' =>
                cases hc
                exact (ht.2 u _ hl' q hq).cons _
              · cases hc
            · rw [List.mem_singleton.1 hq]
              exact made
          · simp only [Map.put_other _ _ hu] at hm
            exact (ht.2 u m hm q hq).cons _
      | userTimeline x a b =>
        refine keep _ ?_
        simp only [Timelines.step, Timelines.read]
        split
        · exact ht
        · split
          · exact ht
          · split
            · exact ht
            · exact ht
            · refine ⟨ht.1, fun u m hm => ?_⟩
              by_cases hu : u = x
              · subst hu
                simp [Map.put_self] at hm
              · simp only [Map.put_other _ _ hu] at hm
                exact ht.2 u m hm
      | lose k =>
        cases k with
        | timeline x =>
          refine keep _ ⟨ht.1, fun u m hm => ?_⟩
          simp only [Timelines.step, Map.drop] at hm
          split at hm
          · cases hm
          · exact ht.2 u m hm
        | _ => exact keep _ ht
      | _ => exact keep _ ht
    · rw [after, step_home]
      have keep : ∀ u, ∀ p ∈ ((after h).home u).getD [], Made (o :: h) p := fun u p hp => (hh u p hp).cons o
      cases o with
      | compose p a ms =>
        simp only [homeStep]
        cases ((after h).graph.getFollowers a).2 with
        | none => exact keep
        | some l =>
          intro u q hq
          simp only [Map.append] at hq
          split at hq
          · rw [Option.getD_some] at hq
            rcases List.mem_append.1 hq with hq | hq
            · exact keep u q hq
            · rw [List.mem_singleton.1 hq]
              exact ⟨p, by simp [stored], rfl⟩
          · exact keep u q hq
      | lose k =>
        cases k with
        | home x =>
          intro u p hp
          simp only [homeStep, Map.drop] at hp
          split at hp
          · cases hp
          · exact keep u p hp
        | _ => exact keep
      | _ => exact keep

/-- The document of a user's timeline has all posts of the user, the newest first, whatever the cache does. -/
theorem timeline_doc (u : Id) (h : List Op) :
    (after h).timelines.db.find? (·.1 = u) = if postsOf u h = [] then none else some (u, (postsOf u h).reverse) := by
  induction h with
  | nil => rfl
  | cons o h ih =>
    rw [after, step_timelines]
    generalize (after h).timelines = t at ih
    cases o with
    | compose p a ms =>
      have hs : (t.step (.compose p a ms)).db = t.store p.id a := by
        simp only [Timelines.step, Timelines.write]
        split <;> rfl
      rw [hs]
      by_cases ha : a = u
      · subst ha
        rw [show postsOf a (.compose p a ms :: h) = postsOf a h ++ [p.id] by simp [postsOf], if_neg (by simp)]
        unfold Timelines.store
        by_cases hp : postsOf a h = []
        · rw [if_pos hp] at ih
          have hn : ¬ t.db.any (·.1 = a) = true := by
            intro e
            obtain ⟨d, hd, e⟩ := List.any_eq_true.1 e
            exact List.find?_eq_none.1 ih d hd e
          rw [if_neg hn, List.find?_append, ih, hp]
          simp
        · rw [if_neg hp] at ih
          rw [if_pos (List.any_eq_true.2 ⟨_, List.mem_of_find?_eq_some ih, by simp⟩)]
          have key : ∀ db : List (Id × List Id), (db.map fun d => if d.1 = a then (a, p.id :: d.2) else d).find? (·.1 = a) =
              (db.find? (·.1 = a)).map fun d => (a, p.id :: d.2) := by
            intro db
            induction db with
            | nil => rfl
            | cons d db ihd =>
              rw [List.map_cons, List.find?_cons, List.find?_cons]
              by_cases hd : d.1 = a
              · simp [hd]
              · simp [hd, ihd]
          rw [key, ih]
          simp
      · rw [show postsOf u (.compose p a ms :: h) = postsOf u h by simp [postsOf, ha], ← ih]
        unfold Timelines.store
        split
        · have key : ∀ db : List (Id × List Id), (db.map fun d => if d.1 = a then (a, p.id :: d.2) else d).find? (·.1 = u) =
              db.find? (·.1 = u) := by
            intro db
            induction db with
            | nil => rfl
            | cons d db ihd =>
              rw [List.map_cons, List.find?_cons, List.find?_cons]
              by_cases hd : d.1 = a
              · rw [if_pos hd]
                have : ¬ d.1 = u := by rw [hd]; exact ha
                simp only [ha, this, decide_false]
                exact ihd
              · rw [if_neg hd, ihd]
          exact key _
        · rw [List.find?_append]
          cases t.db.find? (·.1 = u) <;> simp [ha]
    | userTimeline x a b =>
      rw [show (t.step (.userTimeline x a b)).db = t.db by
        simp only [Timelines.step, Timelines.read]
        split
        · rfl
        · split
          · rfl
          · split <;> rfl]
      exact ih
    | lose k => cases k <;> exact ih
    | _ => exact ih

/-- What the cache has after it lost a timeline and some posts were made. -/
theorem cached_after_loss (u : Id) (ms : List Id) (h : List Op) (ps : List Post) :
    (after (ps.map (Op.compose · u ms) ++ .lose (.timeline u) :: h)).timelines.cached u = some (ps.reverse.map (·.id)) := by
  induction ps with
  | nil =>
    rw [List.map_nil, List.nil_append, after, step_timelines]
    simp [Timelines.step, Timelines.cached, Map.drop]
  | cons p ps ih =>
    rw [List.map_cons, List.cons_append, after, step_timelines]
    generalize (after (ps.map (Op.compose · u ms) ++ .lose (.timeline u) :: h)).timelines = t at ih
    simp only [Timelines.step, Timelines.write, ih]
    simp [Timelines.cached, Map.put]

end Verif.Social
