import Verif.Social.Lemmas
namespace Verif.Social

/-! ## C90: who follows whom -/

/-- C90: as long as the cache keeps the followers of a user, GetFollowers returns the users that follow it, in the order in which they
began, for every history of calls; it fails exactly if the user is not known.  Missing from the full property: a cache may lose values
(`C90_cache_lost_refuted`), a user that was never inserted can be known (`C90_unknown_refuted`), and a relationship can be there twice
(`C90_twice_refuted`). -/
theorem C90_followers_partial (h : List Op) (u : Id) (hl : Op.lose (.followers u) ∉ h) :
    reply h (.followers u) = if known u h = true then .ids (followersOf u h) else .error := by
  simp only [reply, Net.step, getFollowers_spec u h hl]
  split <;> rfl

/-- C90: the same for GetFollowees. -/
theorem C90_followees_partial (h : List Op) (u : Id) (hl : Op.lose (.followees u) ∉ h) :
    reply h (.followees u) = if knownFollower u h = true then .ids (followeesOf u h) else .error := by
  simp only [reply, Net.step, getFollowees_spec u h hl]
  split <;> rfl

/-- C90: the two answers agree: `a` is among the followers of `b` exactly if `b` is among the users that `a` follows. -/
theorem C90_symmetric_partial (h : List Op) (a b : Id) (l m : List Id) (h1 : Op.lose (.followers b) ∉ h) (h2 : Op.lose (.followees a) ∉ h)
    (hl : reply h (.followers b) = .ids l) (hm : reply h (.followees a) = .ids m) : a ∈ l ↔ b ∈ m := by
  rw [C90_followers_partial h b h1] at hl
  rw [C90_followees_partial h a h2] at hm
  split at hl
  · split at hm
    · cases hl
      cases hm
      rw [mem_followersOf, mem_followeesOf]
    · cases hm
  · cases hl

/-- C90 refuted: when the cache has lost the followers of a user, GetFollowers returns the identifier 0 instead of the follower: the
database has the followers under another name. -/
theorem C90_cache_lost_refuted (a b : Id) :
    reply [.lose (.followers b), .follow a b, .insertUser b, .insertUser a] (.followers b) = .ids [0] ∧
    followersOf b [.lose (.followers b), .follow a b, .insertUser b, .insertUser a] = [a] := by
  constructor
  · by_cases hab : a = b
    · subst hab
      simp [reply, after, Net.step, Net.init, Net.lose, Graph.follow, Graph.insertUser, Graph.getFollowers, updateFirst, Map.drop,
        List.find?_cons, Reply.ofIds]
    · simp [reply, after, Net.step, Net.init, Net.lose, Graph.follow, Graph.insertUser, Graph.getFollowers, updateFirst, Map.drop,
        List.find?_cons, Reply.ofIds, hab, Ne.symm hab]
  · simp [followersOf, edges]

/-- C90 refuted: and the next Follow makes the earlier followers disappear. -/
theorem C90_forgotten_refuted (a b c : Id) (hac : a ≠ c) :
    ∃ l, reply [.follow c b, .lose (.followers b), .follow a b, .insertUser a, .insertUser b, .insertUser c] (.followers b) = .ids l ∧
      a ∉ l ∧ a ∈ followersOf b [.follow c b, .lose (.followers b), .follow a b, .insertUser a, .insertUser b, .insertUser c] := by
  refine ⟨[c], ?_, by simpa using hac, by simp [followersOf, edges]⟩
  simp [reply, after, Net.step, Net.lose, Graph.follow, Graph.getFollowers, Map.drop, Map.put, Reply.ofIds]

/-- C90 refuted: GetFollowers of a user that was never inserted succeeds after a Follow. -/
theorem C90_unknown_refuted (a b : Id) : reply [.follow a b] (.followers b) = .ids [a] ∧ reply [] (.followers b) = .error := by
  constructor
  · simp [reply, after, Net.step, Net.init, Graph.follow, Graph.getFollowers, Map.put, Reply.ofIds]
  · simp [reply, after, Net.step, Net.init, Graph.getFollowers, Reply.ofIds]

/-- C90 refuted: a user who follows twice is two followers. -/
theorem C90_twice_refuted (a b : Id) : reply [.follow a b, .follow a b, .insertUser b, .insertUser a] (.followers b) = .ids [a, a] := by
  simp [reply, after, Net.step, Net.init, Graph.follow, Graph.insertUser, Graph.getFollowers, Map.put, Reply.ofIds]

-- users 1, 2, 3: 1 and 2 follow 3, and 1 stops
example : reply [.unfollow 1 3, .follow 2 3, .followers 3, .follow 1 3, .insertUser 3, .insertUser 2, .insertUser 1] (.followers 3) = .ids [2] := by
  decide +kernel

/-! ## C91: user timelines -/

/-- C91: as long as the cache keeps the timeline of a user, ReadUserTimeline returns for every range that is not empty the posts of the
user that ComposePost has made, all of them and nothing else; it fails exactly if there are none.  Missing from the full property: the
range, the order, and users without posts (`C91_range_refuted`, `C91_order_refuted`, `C91_no_posts_refuted`). -/
theorem C91_user_timeline_partial (h : List Op) (u : Id) (start stop : Int) (hl : Op.lose (.timeline u) ∉ h) :
    reply h (.userTimeline u start stop) =
      if stop ≤ start ∨ start < 0 then .ids [] else if postsOf u h = [] then .error else .ids (postsOf u h) := by
  simp only [reply, Net.step, (timelineOk u h hl).read]
  split
  · rfl
  · split <;> rfl

/-- C91, after the cache lost the timeline of a user who then made some posts: a range that ends within as many posts as there are new
ones returns the new ones; any other returns in addition, before them, those of the latest posts up to the end of the range that are
not new.  Missing from the full property: the range, the order, and that later accesses work (`C91_broken_refuted`). -/
theorem C91_after_loss_partial (h : List Op) (u : Id) (ms : List Id) (ps : List Post) (hp : ps ≠ []) (start stop : Int) (hs : 0 ≤ start)
    (hr : start < stop) :
    reply (ps.map (Op.compose · u ms) ++ .lose (.timeline u) :: h) (.userTimeline u start stop) =
      .ids (if stop ≤ start + ps.length then ps.reverse.map (·.id) else
        ((((postsOf u h ++ ps.reverse.map (·.id)).reverse.take stop.toNat).filter fun q => !((ps.reverse.map (·.id)).contains q)) ++
          ps.reverse.map (·.id))) := by
  have hpo : postsOf u (ps.map (Op.compose · u ms) ++ .lose (.timeline u) :: h) = postsOf u h ++ ps.reverse.map (·.id) := by
    clear hp
    induction ps with
    | nil => simp [postsOf]
    | cons p ps ih => simp [postsOf, ih]
  have hd := timeline_doc u (ps.map (Op.compose · u ms) ++ .lose (.timeline u) :: h)
  rw [hpo, if_neg (by simp [hp])] at hd
  simp only [reply, Net.step, Timelines.read, cached_after_loss, if_neg (show ¬ (stop ≤ start ∨ start < 0) by omega),
    Timelines.older, hd, List.length_map, List.length_reverse]
  by_cases hl : stop ≤ start + ps.length
  · rw [if_neg (show ¬ start + (ps.length : Int) < stop by omega), if_pos hl]
    rfl
  · rw [if_pos (show start + (ps.length : Int) < stop by omega), if_neg hl]
    split
    · next e => cases e
    · next e => rw [Option.some.inj e]; rfl
    · next e => rw [Option.some.inj e]; rfl

example : reply [.compose ⟨12, "b".toList⟩ 1 [], .lose (.timeline 1), .compose ⟨11, "a".toList⟩ 1 [], .insertUser 1]
    (.userTimeline 1 1 2) = .ids [12] := by decide +kernel

/-- C91 refuted: the range makes no difference: if a user has two posts or more, the first one alone cannot be read. -/
theorem C91_range_refuted (h : List Op) (u : Id) (hl : Op.lose (.timeline u) ∉ h) (h2 : 2 ≤ (postsOf u h).length) :
    ∃ l, reply h (.userTimeline u 0 1) = .ids l ∧ l.length ≠ (slice (postsOf u h).reverse 0 1).length := by
  refine ⟨postsOf u h, ?_, ?_⟩
  · rw [C91_user_timeline_partial h u 0 1 hl, if_neg (by omega), if_neg (by intro e; rw [e] at h2; simp at h2)]
  · simp [slice]
    omega

/-- C91 refuted: the newest post is the last one, not the first one as promised. -/
theorem C91_order_refuted (p q : Post) (u : Id) (hpq : p.id ≠ q.id) :
    ∃ l, reply [.compose q u [], .compose p u [], .insertUser u] (.userTimeline u 0 10) = .ids l ∧
      l ≠ slice (postsOf u [.compose q u [], .compose p u [], .insertUser u]).reverse 0 10 := by
  refine ⟨[p.id, q.id], ?_, by simp [postsOf, slice, hpq]⟩
  rw [C91_user_timeline_partial _ u 0 10 (by simp)]
  simp [postsOf]

/-- C91 refuted: reading the timeline of a user who has not posted is an error. -/
theorem C91_no_posts_refuted (u : Id) (stop : Int) (hs : 0 < stop) : reply [.insertUser u] (.userTimeline u 0 stop) = .error := by
  rw [C91_user_timeline_partial _ u 0 stop (by simp), if_neg (by omega), if_pos (show postsOf u [.insertUser u] = [] from rfl)]

/-- C91 refuted: when the cache has lost the timeline of a user who has posted, reading the timeline once (of any length) makes
every later access to the timeline fail: each read of a range that is not empty returns an error, and so does each post of the user. -/
theorem C91_broken_refuted (p : Post) (u : Id) (ms : List Id) (h : List Op) (hl : Op.lose (.timeline u) ∉ h)
    (start stop : Int) (hs : 0 ≤ start) (hr : start < stop) (q : Post) :
    reply (.userTimeline u 0 1 :: .lose (.timeline u) :: .compose p u ms :: h) (.userTimeline u start stop) = .error ∧
    reply (.userTimeline u 0 1 :: .lose (.timeline u) :: .compose p u ms :: h) (.compose q u ms) = .error := by
  have ok := timelineOk u (.compose p u ms :: h) (by simpa using hl)
  have hp : postsOf u (.compose p u ms :: h) = postsOf u h ++ [p.id] := by simp [postsOf]
  -- the read has put identifiers into the cache
  have hc : ∃ l, (after (.userTimeline u 0 1 :: .lose (.timeline u) :: .compose p u ms :: h)).timelines.cache u = some (.ids l) := by
    rw [after, step_timelines, after, step_timelines]
    have hs : ∃ post d, (after (.compose p u ms :: h)).timelines.db.find? (·.1 = u) = some (u, post :: d) := by
      rw [after, step_timelines]
      have hf : ∀ t : Timelines, ∃ d, (t.store p.id u).find? (·.1 = u) = some (u, p.id :: d) := by
        intro t
        unfold Timelines.store
        split
        · next ha =>
          have : ∀ l : List (Id × List Id), l.any (·.1 = u) = true →
              ∃ d, (l.map fun d => if d.1 = u then (u, p.id :: d.2) else d).find? (·.1 = u) = some (u, p.id :: d) := by
            intro l hl
            induction l with
            | nil => simp at hl
            | cons e l ih =>
              by_cases he : e.1 = u
              · exact ⟨e.2, by simp [he]⟩
              · obtain ⟨d, hd⟩ := ih (by simpa [he] using hl)
                exact ⟨d, by rw [List.map_cons, if_neg he, List.find?_cons_of_neg (by simpa using he), hd]⟩
          exact this _ ha
        · next ha =>
          refine ⟨[], ?_⟩
          have : t.db.find? (·.1 = u) = none := by
            rw [List.find?_eq_none]
            intro d hd e
            exact ha (List.any_eq_true.2 ⟨d, hd, e⟩)
          rw [List.find?_append, this]
          simp
      have hdb : ((after h).timelines.step (.compose p u ms)).db = (after h).timelines.store p.id u := by
        simp only [Timelines.step, Timelines.write]
        split <;> rfl
      rw [hdb]
      obtain ⟨d, hd⟩ := hf (after h).timelines
      exact ⟨_, d, hd⟩
    obtain ⟨post, d, hd⟩ := hs
    simp only [Timelines.step]
    refine ⟨[post], ?_⟩
    simp [Timelines.read, Timelines.cached, Map.drop, Timelines.older, hd, Map.put]
  obtain ⟨l, hc⟩ := hc
  constructor
  · simp only [reply, Net.step, Timelines.read, Timelines.cached, hc]
    rw [if_neg (by omega)]
    rfl
  · simp only [reply, Net.step, Net.compose, Timelines.write, Timelines.cached, hc]
    simp

/-- C91 refuted: a post for which ComposePost returned an error can nevertheless be in the timeline of its author. -/
theorem C91_failed_post_refuted (p : Post) (u : Id) :
    reply [] (.compose p u []) = .error ∧ reply [.compose p u []] (.userTimeline u 0 1) = .ids [p.id] := by
  constructor
  · simp [reply, after, Net.step, Net.init, Net.compose, Net.writeHome, Graph.getFollowers, Timelines.write, Timelines.cached]
  · rw [C91_user_timeline_partial _ u 0 1 (by simp), if_neg (by omega)]
    simp [postsOf]

example : reply [.compose ⟨12, "b".toList⟩ 1 [], .userTimeline 1 0 5, .compose ⟨11, "a".toList⟩ 1 [], .insertUser 1]
    (.userTimeline 1 0 5) = .ids [11, 12] := by decide +kernel

/-! ## C92: home timelines -/

/-- C92: as long as the caches keep their values, ReadHomeTimeline returns for every history the chosen range of the posts for the
user: those that mention the user, and those of the authors that the user followed when they were made; nothing else, nothing twice,
in the order in which they were made.  Missing from the full property: the posts of the user itself, and ranges behind the end
(`C92_own_posts_refuted`, `C92_past_end_refuted`). -/
theorem C92_home_timeline_partial (h : List Op) (u : Id) (start stop : Nat) (hs : start < stop) (hn : start < (newsOf u h).length)
    (hl : Op.lose (.home u) ∉ h) (hf : ∀ a, Op.lose (.followers a) ∉ h) :
    reply h (.homeTimeline u start stop) = .ids (slice (newsOf u h) start stop) := by
  simp only [reply, Net.step, readHome, home_spec u h hl hf]
  rw [if_neg (by omega), if_pos (by omega)]
  congr 1
  unfold slice
  rw [Int.toNat_natCast]
  congr 1
  by_cases hm : stop ≤ (newsOf u h).length
  · rw [show (min (stop : Int) ((newsOf u h).length : Int)).toNat = stop by omega]
  · rw [show (min (stop : Int) ((newsOf u h).length : Int)).toNat = (newsOf u h).length by omega]
    rw [List.take_of_length_le (Nat.le_refl _), List.take_of_length_le (by omega)]

/-- C92 refuted: a range that begins at the end of the timeline or behind it returns the whole timeline. -/
theorem C92_past_end_refuted (h : List Op) (u : Id) (start stop : Nat) (hs : start < stop) (hn : (newsOf u h).length ≤ start)
    (hl : Op.lose (.home u) ∉ h) (hf : ∀ a, Op.lose (.followers a) ∉ h) :
    reply h (.homeTimeline u start stop) = .ids (newsOf u h) ∧ slice (newsOf u h) start stop = [] := by
  constructor
  · simp only [reply, Net.step, readHome, home_spec u h hl hf]
    rw [if_neg (by omega), if_neg (by omega)]
  · unfold slice
    apply List.drop_eq_nil_of_le
    simp
    omega

/-- C92 refuted: users do not find their own posts in their home timelines (unless they follow or mention themselves). -/
theorem C92_own_posts_refuted (p : Post) (u : Id) :
    reply [.compose p u [], .insertUser u] (.homeTimeline u 0 10) = .ids [] := by
  have := (C92_past_end_refuted [.compose p u [], .insertUser u] u 0 10 (by omega) (by simp [newsOf, edges]) (by simp) (by simp)).1
  simpa [newsOf, edges] using this

/-- C92 refuted: home timelines are kept in a cache only: a timeline that the cache has lost is gone. -/
theorem C92_lost_refuted (h : List Op) (u : Id) (start stop : Int) : reply (.lose (.home u) :: h) (.homeTimeline u start stop) = .ids [] := by
  simp [reply, after, Net.step, Net.lose, readHome, Map.drop]

-- 1 and 2 follow 3; 3 posts; 1 stops; 3 posts and mentions 4
example : newsOf 1 [.compose ⟨12, []⟩ 3 [4], .unfollow 1 3, .compose ⟨11, []⟩ 3 [], .follow 2 3, .follow 1 3, .insertUser 3] = [11] := by
  decide +kernel
example : (reply [.compose ⟨12, []⟩ 3 [4], .unfollow 1 3, .compose ⟨11, []⟩ 3 [], .follow 2 3, .follow 1 3, .insertUser 3]
    (.homeTimeline 2 1 5), reply [.compose ⟨12, []⟩ 3 [4], .unfollow 1 3, .compose ⟨11, []⟩ 3 [], .follow 2 3, .follow 1 3, .insertUser 3]
    (.homeTimeline 4 0 5)) = (.ids [12], .ids [12]) := by decide +kernel

/-! ## C93: posts -/

/-- C93: if the posts have different identifiers, ReadPost returns for every history, whatever the cache loses, the post with that
identifier; it fails exactly if there is none.  Missing from the full property: identifiers are not always different (C89). -/
theorem C93_read_post_partial (h : List Op) (id : Id) (hn : ((stored h).map (·.id)).Nodup) :
    (∀ p ∈ stored h, p.id = id → reply h (.readPost id) = .posts [p]) ∧
    ((∀ p ∈ stored h, p.id ≠ id) → reply h (.readPost id) = .error) := by
  have ok := postsOk h
  constructor
  · intro p hp e
    have : (after h).posts.read id = some p := by
      unfold Posts.read
      cases hc : (after h).posts.cache id with
      | some q =>
        obtain ⟨h1, h2⟩ := ok.cached id q hc
        rw [unique_id hn h1 hp (h2.trans e.symm)]
      | none =>
        rw [ok.db]
        simp only
        cases hf : (stored h).find? (·.id = id) with
        | none => exact absurd (List.find?_eq_none.1 hf p hp) (by simp [e])
        | some q =>
          have := List.find?_some hf
          rw [unique_id hn (List.mem_of_find?_eq_some hf) hp (by rw [e]; simpa using this)]
    simp only [reply, Net.step, this]
  · intro hnone
    have : (after h).posts.read id = none := by
      unfold Posts.read
      cases hc : (after h).posts.cache id with
      | some q => exact absurd (ok.cached id q hc).2 (hnone q (ok.cached id q hc).1)
      | none =>
        rw [ok.db]
        simp only
        rw [List.find?_eq_none]
        intro q hq
        simpa using hnone q hq
    simp only [reply, Net.step, this]

/-- C93: if the posts have different identifiers, ReadPosts returns for every history, whatever the cache loses, the posts
with the identifiers that are asked for and no others; if no identifier is asked for twice, no post is returned twice.  Missing from the
full property: identifiers that are the same (C89). -/
theorem C93_read_posts_partial (h : List Op) (ids : List Id) (hn : ((stored h).map (·.id)).Nodup) :
    ∃ l, reply h (.readPosts ids) = .posts l ∧ (∀ p, p ∈ l ↔ p ∈ stored h ∧ p.id ∈ ids) ∧ (ids.Nodup → l.Nodup) := by
  have ok := postsOk h
  refine ⟨_, rfl, ?_, ?_⟩
  · intro p
    simp only [Posts.readMany, List.mem_append]
    constructor
    · rintro (hp | hp)
      · simp only [Posts.hits, List.mem_filter, List.mem_filterMap] at hp
        obtain ⟨⟨id, hid, hc⟩, _⟩ := hp
        obtain ⟨h1, h2⟩ := ok.cached id p hc
        exact ⟨h1, h2 ▸ hid⟩
      · simp only [Posts.misses, List.mem_filter, Bool.and_eq_true, List.contains_eq_mem, decide_eq_true_eq] at hp
        exact ⟨ok.db ▸ hp.1, hp.2.1⟩
    · rintro ⟨hp, hid⟩
      by_cases hc : ∃ q ∈ (after h).posts.hits ids, q.id = p.id
      · obtain ⟨q, hq, e⟩ := hc
        left
        have hq' := hq
        simp only [Posts.hits, List.mem_filter, List.mem_filterMap] at hq'
        obtain ⟨⟨id, _, hc⟩, _⟩ := hq'
        rw [← unique_id hn (ok.cached id q hc).1 hp e]
        exact hq
      · right
        simp only [Posts.misses, List.mem_filter, Bool.and_eq_true, List.contains_eq_mem, decide_eq_true_eq, ok.db]
        refine ⟨hp, hid, ?_⟩
        simp only [Bool.not_eq_true', List.any_eq_false, decide_eq_true_eq]
        exact fun q hq e => hc ⟨q, hq, e⟩
  · intro hid
    simp only [Posts.readMany]
    rw [List.nodup_append]
    have hstored : (stored h).Nodup := by
      have : ∀ l : List Post, (l.map (·.id)).Nodup → l.Nodup := by
        intro l hl
        induction l with
        | nil => exact .nil
        | cons x l ih =>
          rw [List.map_cons, List.nodup_cons] at hl
          rw [List.nodup_cons]
          exact ⟨fun hx => hl.1 (List.mem_map.2 ⟨x, hx, rfl⟩), ih hl.2⟩
      exact this _ hn
    refine ⟨?_, ?_, ?_⟩
    · unfold Posts.hits
      refine List.Pairwise.filter _ ?_
      have hk : ∀ k p, (after h).posts.cache k = some p → p.id = k := fun k p hp => (ok.cached k p hp).2
      induction ids with
      | nil => exact .nil
      | cons i ids ih =>
        rw [List.nodup_cons] at hid
        rw [List.filterMap_cons]
        split
        · exact ih hid.2
        · next p hp =>
          refine List.nodup_cons.2 ⟨?_, ih hid.2⟩
          intro hm
          obtain ⟨j, hj, hc⟩ := List.mem_filterMap.1 hm
          have := (hk i p hp).symm.trans (hk j p hc)
          exact hid.1 (this ▸ hj)
    · unfold Posts.misses
      rw [ok.db]
      exact List.Pairwise.filter _ hstored
    · intro a ha b hb e
      subst e
      simp only [Posts.misses, List.mem_filter, Bool.and_eq_true, Bool.not_eq_true', List.any_eq_false, decide_eq_true_eq] at hb
      exact hb.2.2 a ha rfl

/-- C93: every post that a timeline shows can be read, for every history, whatever the caches lose. -/
theorem C93_timeline_posts (h : List Op) (u : Id) (start stop : Int) (l : List Id)
    (hl : reply h (.userTimeline u start stop) = .ids l ∨ reply h (.homeTimeline u start stop) = .ids l) (id : Id) (hid : id ∈ l) :
    ∃ p, reply h (.readPost id) = .posts [p] ∧ p.id = id := by
  have inv := shownOk h
  have ok := postsOk h
  -- the post is stored
  have st : ∃ p ∈ stored h, p.id = id := by
    rcases hl with hl | hl
    · simp only [reply, Net.step] at hl
      cases hr : ((after h).timelines.read u start stop).2 with
      | none => rw [hr] at hl; cases hl
      | some m =>
        rw [hr] at hl
        cases hl
        exact read_shown inv.1 hr id hid
    · simp only [reply, Net.step] at hl
      cases hl
      apply inv.2 u
      unfold readHome at hid
      split at hid
      · cases hid
      simp only at hid
      split at hid
      · exact List.mem_of_mem_take (List.mem_of_mem_drop hid)
      · exact hid
  obtain ⟨p, hp, e⟩ := st
  simp only [reply, Net.step, Posts.read]
  cases hc : (after h).posts.cache id with
  | some q => exact ⟨q, rfl, (ok.cached id q hc).2⟩
  | none =>
    simp only [ok.db]
    cases hf : (stored h).find? (·.id = id) with
    | none => exact absurd (List.find?_eq_none.1 hf p hp) (by simp [e])
    | some q => exact ⟨q, rfl, by simpa using List.find?_some hf⟩

/-- C93 refuted: of two posts with the same identifier (C89) only the older one can be read with ReadPost, although both are in the
database. -/
theorem C93_same_id_refuted (p q : Post) (u : Id) (hpq : p.id = q.id) :
    reply [.compose q u [], .compose p u [], .insertUser u] (.readPost q.id) = .posts [p] := by
  have e : (after [.compose q u [], .compose p u [], .insertUser u]).posts = ⟨[p, q], fun _ => none⟩ := by
    simp only [after, Net.step, Net.compose, writeHome_fst, Posts.store, Net.init, List.nil_append, List.cons_append]
  simp [reply, Net.step, e, Posts.read, hpq]

example : reply [.lose (.post 11), .readPosts [12, 11], .compose ⟨12, "b".toList⟩ 1 [], .compose ⟨11, "a".toList⟩ 1 [], .insertUser 1]
    (.readPosts [11, 12, 13]) = .posts [⟨12, "b".toList⟩, ⟨11, "a".toList⟩] := by decide +kernel

end Verif.Social
