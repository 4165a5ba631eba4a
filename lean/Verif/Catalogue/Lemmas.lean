/-
Lemmas about the queries and the tables.
-/
import Verif.Catalogue.Spec
namespace Verif.Catalogue
variable {P : Type}

/-! ### Grouping -/

/-- One more name, if it is new. -/
def add (ns : List Str) (a : Str) : List Str := if ns.contains a then ns else ns ++ [a]

/-- The different names, in order. -/
def firsts (l : List Str) : List Str := l.foldl add []

theorem add_nodup {ns : List Str} (a : Str) (h : ns.Nodup) : (add ns a).Nodup := by
  unfold add
  split
  · exact h
  · next hc =>
    rw [List.nodup_append]
    refine ⟨h, by simp, ?_⟩
    intro x hx y hy e
    simp only [List.mem_singleton] at hy
    subst hy; subst e
    exact hc (by simpa using hx)

theorem mem_add {ns : List Str} {a b : Str} : b ∈ add ns a ↔ b ∈ ns ∨ b = a := by
  unfold add
  split
  · next h =>
    constructor
    · exact .inl
    · rintro (h' | rfl)
      · exact h'
      · simpa using h
  · simp

theorem foldl_add_nodup (l : List Str) : ∀ {ns : List Str}, ns.Nodup → (l.foldl add ns).Nodup := by
  induction l with
  | nil => exact fun h => h
  | cons a l ih => exact fun h => ih (add_nodup a h)

theorem mem_foldl_add (l : List Str) : ∀ {ns : List Str} {b : Str}, b ∈ l.foldl add ns ↔ b ∈ ns ∨ b ∈ l := by
  induction l with
  | nil => simp
  | cons a l ih =>
    intro ns b
    rw [List.foldl_cons, ih, mem_add, List.mem_cons, or_assoc]

theorem firsts_nodup (l : List Str) : (firsts l).Nodup := foldl_add_nodup l .nil
theorem mem_firsts {l : List Str} {b : Str} : b ∈ firsts l ↔ b ∈ l := by
  unfold firsts; rw [mem_foldl_add]; simp

theorem add_add (ns : List Str) (a : Str) : add (add ns a) a = add ns a := by
  have h : a ∈ add ns a := mem_add.2 (.inr rfl)
  have e : ∀ ms : List Str, a ∈ ms → add ms a = ms := by
    intro ms hm
    unfold add
    rw [if_pos (by simpa using hm)]
  exact e _ h

theorem add_replicate (ns : List Str) (a : Str) (k : Nat) : (List.replicate (k + 1) a).foldl add ns = add ns a := by
  induction k generalizing ns with
  | zero => rfl
  | succ k ih =>
    rw [List.replicate_succ, List.foldl_cons, ih, add_add]

theorem add_repeated (l : List Str) (k : Nat) (ns : List Str) :
    (l.flatMap fun a => List.replicate (k + 1) a).foldl add ns = l.foldl add ns := by
  induction l generalizing ns with
  | nil => rfl
  | cons a l ih => rw [List.flatMap_cons, List.foldl_append, add_replicate, ih, List.foldl_cons]

theorem group_append (gs hs : List (Row P × List Str)) (x : Row P × Str) (h : ∀ g ∈ gs, g.1.id ≠ x.1.id) :
    group (gs ++ hs) x = gs ++ group hs x := by
  induction gs with
  | nil => rfl
  | cons g gs ih =>
    rw [List.cons_append, group, if_neg (h g List.mem_cons_self), ih fun y hy => h y (List.mem_cons_of_mem _ hy),
      List.cons_append]

theorem groups_append (block : List (Row P × Str)) : ∀ (gs hs : List (Row P × List Str)),
    (∀ g ∈ gs, ∀ x ∈ block, g.1.id ≠ x.1.id) → block.foldl group (gs ++ hs) = gs ++ block.foldl group hs := by
  induction block with
  | nil => intros; rfl
  | cons x block ih =>
    intro gs hs h
    rw [List.foldl_cons, List.foldl_cons, group_append _ _ _ fun g hg => h g hg x List.mem_cons_self,
      ih _ _ fun g hg y hy => h g hg y (List.mem_cons_of_mem _ hy)]

theorem group_block (r : Row P) (l : List Str) : ∀ ns, (l.map fun a => (r, a)).foldl group [(r, ns)] = [(r, l.foldl add ns)] := by
  induction l with
  | nil => intro; rfl
  | cons a l ih =>
    intro ns
    rw [List.map_cons, List.foldl_cons, List.foldl_cons, ← ih]
    rw [group, if_pos rfl]
    rfl

/-- The rows of one sock. -/
def block (db : DB P) (keep : Str → Bool) (r : Row P) : List (Row P × Str) :=
  (tagsOf db r.id).flatMap fun a => ((tagsOf db r.id).filter keep).map fun _ => (r, a)

/-- What a grouped query gives for a sock. -/
def shown (db : DB P) (keep : Str → Bool) (r : Row P) : Option (Row P × List Str) :=
  if (tagsOf db r.id).filter keep = [] then none else some (r, firsts (tagsOf db r.id))

theorem block_grouped (db : DB P) (keep : Str → Bool) (r : Row P) :
    (block db keep r).foldl group [] = (shown db keep r).toList := by
  unfold block shown
  generalize hf : (tagsOf db r.id).filter keep = f
  cases f with
  | nil =>
    rw [if_pos rfl]
    have e : ∀ l : List Str, (l.flatMap fun a => ([] : List Str).map fun _ => (r, a)) = [] := by
      intro l
      induction l with
      | nil => rfl
      | cons a l ih => rw [List.flatMap_cons, ih]; rfl
    rw [e]
    rfl
  | cons b f =>
    have e : (fun a : Str => (b :: f).map fun _ => (r, a)) = fun a : Str => (List.replicate (f.length + 1) a).map fun a => (r, a) := by
      funext a
      have : ∀ l : List Str, (l.map fun _ => (r, a)) = (List.replicate l.length a).map fun a => (r, a) := by
        intro l
        induction l with
        | nil => rfl
        | cons _ l ih => rw [List.length_cons, List.replicate_succ, List.map_cons, List.map_cons, ih]
      exact this (b :: f)
    rw [e]
    have hne : tagsOf db r.id ≠ [] := by
      intro h0; rw [h0] at hf; cases hf
    generalize tagsOf db r.id = l at hne
    rw [show (l.flatMap fun a => (List.replicate (f.length + 1) a).map fun a => (r, a)) =
      (l.flatMap fun a => List.replicate (f.length + 1) a).map (fun a => (r, a)) by rw [List.map_flatMap]]
    cases l with
    | nil => exact absurd rfl hne
    | cons a l =>
      rw [if_neg (by simp)]
      have h2 := add_repeated (a :: l) f.length []
      rw [List.flatMap_cons, List.replicate_succ, List.cons_append, List.foldl_cons] at h2
      rw [List.flatMap_cons, List.replicate_succ, List.cons_append, List.map_cons, List.foldl_cons]
      show List.foldl group [(r, [a])] _ = _
      rw [group_block]
      show _ = [(r, firsts (a :: l))]
      unfold firsts
      rw [← h2]
      rfl

theorem block_ids (db : DB P) (keep : Str → Bool) (r : Row P) : ∀ x ∈ block db keep r, x.1 = r := by
  intro x hx
  unfold block at hx
  simp only [List.mem_flatMap, List.mem_map] at hx
  obtain ⟨a, -, b, -, rfl⟩ := hx
  rfl

theorem blocks_grouped (db : DB P) (keep : Str → Bool) (rs : List (Row P)) : ∀ gs : List (Row P × List Str),
    (rs.map (·.id)).Nodup → (∀ g ∈ gs, ∀ r ∈ rs, g.1.id ≠ r.id) →
    (rs.flatMap (block db keep)).foldl group gs = gs ++ rs.filterMap (shown db keep) := by
  induction rs with
  | nil => intro gs _ _; simp
  | cons r rs ih =>
    intro gs hn h
    rw [List.map_cons, List.nodup_cons] at hn
    rw [List.flatMap_cons, List.foldl_append]
    have e := groups_append (block db keep r) gs [] (by
      intro g hg x hx
      rw [block_ids db keep r x hx]
      exact h g hg r List.mem_cons_self)
    rw [List.append_nil] at e
    rw [e, block_grouped, ih _ hn.2]
    · rw [List.append_assoc]
      congr 1
      rw [List.filterMap_cons]
      cases shown db keep r <;> rfl
    · intro g hg r' hr'
      rcases List.mem_append.1 hg with hg | hg
      · exact h g hg r' (List.mem_cons_of_mem _ hr')
      · unfold shown at hg
        split at hg
        · simp at hg
        · simp only [Option.toList_some, List.mem_singleton] at hg
          subst hg
          intro e
          exact hn.1 (List.mem_map.2 ⟨r', hr', e.symm⟩)

theorem grouped_joined (db : DB P) (hn : (db.socks.map (·.id)).Nodup) (sock : Row P → Bool) (keep : Str → Bool) :
    grouped (joined db sock keep) = (db.socks.filter sock).filterMap (shown db keep) := by
  unfold grouped
  have h := blocks_grouped db keep (db.socks.filter sock) [] (hn.sublist (List.filter_sublist.map _)) (by simp)
  rw [List.nil_append] at h
  exact h

/-! ### Splitting -/

theorem split_loop_end (s cur : Str) (h : ',' ∉ s) : splitLoop cur s = [cur ++ s] := by
  induction s generalizing cur with
  | nil => simp [splitLoop]
  | cons c s ih =>
    rw [List.mem_cons, not_or] at h
    rw [splitLoop, if_neg (Ne.symm h.1), ih _ h.2]
    simp

theorem split_loop_comma (s t cur : Str) (h : ',' ∉ s) : splitLoop cur (s ++ ',' :: t) = (cur ++ s) :: splitLoop [] t := by
  induction s generalizing cur with
  | nil => simp [splitLoop]
  | cons c s ih =>
    rw [List.mem_cons, not_or] at h
    rw [List.cons_append, splitLoop, if_neg (Ne.symm h.1), ih _ h.2]
    simp

theorem split_commas (l : List Str) (hne : l ≠ []) (h : ∀ t ∈ l, ',' ∉ t) : split (commas l) = l := by
  unfold split
  induction l with
  | nil => exact absurd rfl hne
  | cons s l ih =>
    cases l with
    | nil => rw [commas, split_loop_end _ _ (h s List.mem_cons_self)]; rfl
    | cons t l =>
      have e : commas (s :: t :: l) = s ++ ',' :: commas (t :: l) := rfl
      rw [e, split_loop_comma _ _ _ (h s List.mem_cons_self), ih (by simp) fun x hx => h x (List.mem_cons_of_mem _ hx)]
      rfl

/-! ### The tables -/

/-- What holds of the tables after any calls. -/
structure Inv (db : DB P) : Prop where
  ids : (db.socks.map (·.id)).Nodup
  tagIds : (db.tags.map (·.1)).Nodup
  tagNext : ∀ t ∈ db.tags, t.1 < db.nextTag
  tagNames : (db.tags.map (·.2)).Nodup
  linkTag : ∀ l ∈ db.links, ∃ t ∈ db.tags, t.1 = l.2
  linkSock : ∀ l ∈ db.links, ∃ r ∈ db.socks, r.id = l.1

theorem inv_init : Inv (DB.init : DB P) :=
  ⟨.nil, .nil, by simp [DB.init], .nil, by simp [DB.init], by simp [DB.init]⟩

/-- The name of a tag. -/
def nameOf (tags : List (Nat × Str)) (i : Nat) : List Str := (tags.filter fun t => t.1 = i).map (·.2)

theorem tagsOf_eq (db : DB P) (id : Str) :
    tagsOf db id = ((db.links.filter fun l => l.1 = id).map (·.2)).flatMap (nameOf db.tags) := by
  unfold tagsOf
  rw [List.flatMap_map]
  rfl

theorem nameOf_append (tags new : List (Nat × Str)) (hn : ((tags ++ new).map (·.1)).Nodup) {i : Nat} (h : ∃ t ∈ tags, t.1 = i) :
    nameOf (tags ++ new) i = nameOf tags i := by
  unfold nameOf
  rw [List.filter_append]
  have : new.filter (fun t => decide (t.1 = i)) = [] := by
    rw [List.filter_eq_nil_iff]
    intro x hx
    obtain ⟨t, ht, e⟩ := h
    rw [List.map_append, List.nodup_append] at hn
    have := hn.2.2 t.1 (List.mem_map_of_mem ht) x.1 (List.mem_map_of_mem hx)
    simp only [decide_eq_true_eq]
    rw [← e]
    exact Ne.symm this
  rw [this, List.append_nil]

theorem nameOf_mem (tags : List (Nat × Str)) (hn : (tags.map (·.1)).Nodup) {t : Nat × Str} (h : t ∈ tags) :
    nameOf tags t.1 = [t.2] := by
  induction tags with
  | nil => cases h
  | cons a tags ih =>
    rw [List.map_cons, List.nodup_cons] at hn
    have off : ∀ i, (∀ t ∈ tags, t.1 ≠ i) → nameOf tags i = [] := by
      intro i hi
      unfold nameOf
      rw [List.filter_eq_nil_iff.2 fun x hx => by simpa using hi x hx]
      rfl
    rcases List.mem_cons.1 h with rfl | h
    · have h0 := off t.1 fun x hx e => hn.1 (List.mem_map.2 ⟨x, hx, e⟩)
      unfold nameOf at h0 ⊢
      rw [List.filter_cons, if_pos (by simp), List.map_cons, h0]
    · have h1 := ih hn.2 h
      unfold nameOf at h1 ⊢
      rw [List.filter_cons, if_neg, h1]
      simp only [decide_eq_true_eq]
      intro e
      exact hn.1 (List.mem_map.2 ⟨t, h, e.symm⟩)

theorem lookup_some {tags : List (Nat × Str)} {name : Str} {i : Nat} (h : tagLookup tags name = some i) : (i, name) ∈ tags := by
  unfold tagLookup at h
  rw [Option.map_eq_some_iff] at h
  obtain ⟨t, ht, rfl⟩ := h
  have h1 := List.mem_of_find?_eq_some ht
  have h2 := List.find?_some ht
  simp only [decide_eq_true_eq] at h2
  subst h2
  simpa using h1

theorem lookup_none {tags : List (Nat × Str)} {name : Str} (h : tagLookup tags name = none) : name ∉ tags.map (·.2) := by
  unfold tagLookup at h
  rw [Option.map_eq_none_iff, List.find?_eq_none] at h
  intro hm
  obtain ⟨t, ht, rfl⟩ := List.mem_map.1 hm
  exact h t (by simpa using ht) (by simp)

/-- `db'` has some more tags. -/
structure More (db db' : DB P) (names : List Str) : Prop where
  socks : db'.socks = db.socks
  links : db'.links = db.links
  new : ∃ new, db'.tags = db.tags ++ new ∧ ∀ t ∈ new, t.2 ∈ names
  tagIds : (db'.tags.map (·.1)).Nodup
  tagNext : ∀ t ∈ db'.tags, t.1 < db'.nextTag
  tagNames : (db'.tags.map (·.2)).Nodup

theorem More.refl {db : DB P} (h : Inv db) (names : List Str) : More db db names :=
  ⟨rfl, rfl, ⟨[], by simp⟩, h.tagIds, h.tagNext, h.tagNames⟩

theorem insert_tag {db : DB P} (hi : (db.tags.map (·.1)).Nodup) (hx : ∀ t ∈ db.tags, t.1 < db.nextTag)
    (hm : (db.tags.map (·.2)).Nodup) {name : Str} (hl : name ∉ db.tags.map (·.2)) :
    ((db.tags ++ [(db.nextTag, name)]).map (·.1)).Nodup ∧
    (∀ t ∈ db.tags ++ [(db.nextTag, name)], t.1 < db.nextTag + 1) ∧
    ((db.tags ++ [(db.nextTag, name)]).map (·.2)).Nodup := by
  refine ⟨?_, ?_, ?_⟩
  · rw [List.map_append, List.nodup_append]
    refine ⟨hi, by simp, ?_⟩
    intro a ha b hb
    simp only [List.map_cons, List.map_nil, List.mem_singleton] at hb
    subst hb
    obtain ⟨t, ht, rfl⟩ := List.mem_map.1 ha
    exact Nat.ne_of_lt (hx t ht)
  · intro t ht
    rcases List.mem_append.1 ht with ht | ht
    · exact Nat.lt_succ_of_lt (hx t ht)
    · simp only [List.mem_singleton] at ht
      subst ht
      exact Nat.lt_succ_self _
  · rw [List.map_append, List.nodup_append]
    refine ⟨hm, by simp, ?_⟩
    intro a ha b hb
    simp only [List.map_cons, List.map_nil, List.mem_singleton] at hb
    subst hb
    exact fun e => hl (e ▸ ha)

theorem tags_loop (fails : Fails) (names : List Str) : ∀ (db : DB P) (n : Nat),
    (db.tags.map (·.1)).Nodup → (∀ t ∈ db.tags, t.1 < db.nextTag) → (db.tags.map (·.2)).Nodup →
    ∃ db' n' r, addTagsLoop fails db db.tags n names = (db', n', r) ∧ More db db' names ∧
      (∀ ids, r = some ids → (∀ i ∈ ids, ∃ t ∈ db'.tags, t.1 = i) ∧ ids.flatMap (nameOf db'.tags) = names) ∧
      ((∀ k, fails k = false) → ∃ ids, r = some ids) := by
  induction names with
  | nil =>
    intro db n hi hx hm
    exact ⟨db, n, some [], rfl, ⟨rfl, rfl, ⟨[], by simp⟩, hi, hx, hm⟩,
      fun ids h => (by cases h; exact ⟨by simp, rfl⟩), fun _ => ⟨_, rfl⟩⟩
  | cons name names ih =>
    intro db n hi hx hm
    rw [addTagsLoop]
    cases hl : tagLookup db.tags name with
    | some i =>
      have hmem := lookup_some hl
      obtain ⟨db', n', r, e, hmore, hids, hok⟩ := ih db n hi hx hm
      obtain ⟨new, htags, hnew⟩ := hmore.new
      refine ⟨db', n', r.map (i :: ·), by simp only [e], ⟨hmore.socks, hmore.links, ⟨new, htags, fun t ht =>
        List.mem_cons_of_mem _ (hnew t ht)⟩, hmore.tagIds, hmore.tagNext, hmore.tagNames⟩, ?_, ?_⟩
      · intro ids h
        rw [Option.map_eq_some_iff] at h
        obtain ⟨ids, h, rfl⟩ := h
        obtain ⟨h1, h2⟩ := hids ids h
        have hm' : (i, name) ∈ db'.tags := by rw [htags]; exact List.mem_append_left _ hmem
        refine ⟨?_, ?_⟩
        · intro j hj
          rcases List.mem_cons.1 hj with rfl | hj
          · exact ⟨_, hm', rfl⟩
          · exact h1 j hj
        · rw [List.flatMap_cons, h2, nameOf_mem _ hmore.tagIds hm']
          rfl
      · intro hf
        obtain ⟨ids, h⟩ := hok hf
        exact ⟨i :: ids, by rw [h]; rfl⟩
    | none =>
      have hnone := lookup_none hl
      simp only []
      by_cases hf : fails n
      · rw [if_pos hf]
        exact ⟨db, n + 1, none, rfl, ⟨rfl, rfl, ⟨[], by simp⟩, hi, hx, hm⟩, fun ids h => (by cases h),
          fun h => by simp [h n] at hf⟩
      · rw [if_neg hf]
        obtain ⟨a1, a2, a3⟩ := insert_tag hi hx hm hnone
        obtain ⟨db', n', r, e, hmore, hids, hok⟩ :=
          ih { db with tags := db.tags ++ [(db.nextTag, name)], nextTag := db.nextTag + 1 } (n + 1) a1 a2 a3
        obtain ⟨new, htags, hnew⟩ := hmore.new
        refine ⟨db', n', r.map (db.nextTag :: ·), ?_, ⟨hmore.socks, hmore.links, ⟨(db.nextTag, name) :: new, ?_, ?_⟩,
          hmore.tagIds, hmore.tagNext, hmore.tagNames⟩, ?_, ?_⟩
        · simp only [e]
        · rw [htags]; simp
        · intro t ht
          rcases List.mem_cons.1 ht with rfl | ht
          · exact List.mem_cons_self
          · exact List.mem_cons_of_mem _ (hnew t ht)
        · intro ids h
          rw [Option.map_eq_some_iff] at h
          obtain ⟨ids, h, rfl⟩ := h
          obtain ⟨h1, h2⟩ := hids ids h
          have hm' : (db.nextTag, name) ∈ db'.tags := by rw [htags]; simp
          refine ⟨?_, ?_⟩
          · intro j hj
            rcases List.mem_cons.1 hj with rfl | hj
            · exact ⟨_, hm', rfl⟩
            · exact h1 j hj
          · rw [List.flatMap_cons, h2, nameOf_mem _ hmore.tagIds hm']
            rfl
        · intro hf
          obtain ⟨ids, h⟩ := hok hf
          exact ⟨db.nextTag :: ids, by rw [h]; rfl⟩

theorem tags_from (fails : Fails) (db : DB P) (h : Inv db) (n : Nat) (names : List Str) :
    ∃ db' n' r, addTagsFrom fails db n names = (db', n', r) ∧ More db db' names ∧
      (∀ ids, r = some ids → (∀ i ∈ ids, ∃ t ∈ db'.tags, t.1 = i) ∧ ids.flatMap (nameOf db'.tags) = names) ∧
      ((∀ k, fails k = false) → ∃ ids, r = some ids) := by
  unfold addTagsFrom
  by_cases hf : fails n
  · rw [if_pos hf]
    exact ⟨db, n + 1, none, rfl, .refl h _, fun ids h => (by cases h), fun h => by simp [h n] at hf⟩
  · rw [if_neg hf]
    exact tags_loop fails names db (n + 1) h.tagIds h.tagNext h.tagNames

theorem More.inv {db db' : DB P} {names : List Str} (m : More db db' names) (h : Inv db) : Inv db' := by
  obtain ⟨new, e, -⟩ := m.new
  refine ⟨by rw [m.socks]; exact h.ids, m.tagIds, m.tagNext, m.tagNames, ?_, ?_⟩
  · intro l hl
    rw [m.links] at hl
    obtain ⟨t, ht, e'⟩ := h.linkTag l hl
    exact ⟨t, by rw [e]; exact List.mem_append_left _ ht, e'⟩
  · intro l hl
    rw [m.links] at hl
    rw [m.socks]
    exact h.linkSock l hl

/-- The links of a sock keep their names. -/
theorem names_more {db db' : DB P} {names : List Str} (m : More db db' names) {l : List Nat}
    (hl : ∀ i ∈ l, ∃ t ∈ db.tags, t.1 = i) : l.flatMap (nameOf db'.tags) = l.flatMap (nameOf db.tags) := by
  obtain ⟨new, e, -⟩ := m.new
  induction l with
  | nil => rfl
  | cons i l ih =>
    rw [List.flatMap_cons, List.flatMap_cons, ih fun j hj => hl j (List.mem_cons_of_mem _ hj), e,
      nameOf_append _ _ (by rw [← e]; exact m.tagIds) (hl i List.mem_cons_self)]

theorem delete_cases (fails : Fails) (db : DB P) (n : Nat) (id : Str) (hid : id ≠ []) :
    ∃ db' n' b, deleteFrom fails db n id = (db', n', b) ∧ db'.tags = db.tags ∧ db'.nextTag = db.nextTag ∧
      (db' = db ∧ b = false ∨
       db'.links = db.links.filter (fun l => l.1 ≠ id) ∧
         (db'.socks = db.socks ∧ b = false ∨ db'.socks = db.socks.filter (fun r => r.id ≠ id) ∧ b = true)) ∧
      ((∀ k, fails k = false) → b = true) := by
  unfold deleteFrom
  rw [if_neg hid]
  by_cases h1 : fails n
  · rw [if_pos h1]
    exact ⟨db, _, _, rfl, rfl, rfl, .inl ⟨rfl, rfl⟩, fun h => by simp [h n] at h1⟩
  · rw [if_neg h1]
    by_cases h2 : fails (n + 1)
    · simp only [h2, if_true]
      exact ⟨_, _, _, rfl, rfl, rfl, .inr ⟨rfl, .inl ⟨rfl, rfl⟩⟩, fun h => by simp [h (n + 1)] at h2⟩
    · simp only [h2, if_false]
      exact ⟨_, _, _, rfl, rfl, rfl, .inr ⟨rfl, .inr ⟨rfl, rfl⟩⟩, fun _ => rfl⟩

theorem delete_inv (fails : Fails) (db : DB P) (h : Inv db) (n : Nat) (id : Str) : Inv (deleteFrom fails db n id).1 := by
  by_cases hid : id = []
  · unfold deleteFrom; rw [if_pos hid]; exact h
  obtain ⟨db', n', b, e, ht, hx, hc, -⟩ := delete_cases fails db n id hid
  rw [e]
  show Inv db'
  rcases hc with ⟨rfl, -⟩ | ⟨hl, hs⟩
  · exact h
  · refine ⟨?_, by rw [ht]; exact h.tagIds, by rw [ht, hx]; exact h.tagNext, by rw [ht]; exact h.tagNames, ?_, ?_⟩
    · rcases hs with ⟨hs, -⟩ | ⟨hs, -⟩
      · rw [hs]; exact h.ids
      · rw [hs]; exact h.ids.sublist (List.filter_sublist.map _)
    · intro l hm
      rw [hl] at hm
      rw [ht]
      exact h.linkTag l (List.mem_filter.1 hm).1
    · intro l hm
      rw [hl, List.mem_filter] at hm
      obtain ⟨r, hr, e'⟩ := h.linkSock l hm.1
      rcases hs with ⟨hs, -⟩ | ⟨hs, -⟩
      · rw [hs]; exact ⟨r, hr, e'⟩
      · rw [hs]
        refine ⟨r, List.mem_filter.2 ⟨hr, ?_⟩, e'⟩
        have := hm.2
        simp only [ne_eq, decide_eq_true_eq] at this ⊢
        rw [e']; exact this

theorem link_loop (fails : Fails) (id : Str) (ids : List Nat) : ∀ (db : DB P) (n : Nat),
    ∃ db' b, linkLoop fails id db n ids = (db', b) ∧ db'.socks = db.socks ∧ db'.tags = db.tags ∧ db'.nextTag = db.nextTag ∧
      (∃ ids', ids'.Sublist ids ∧ db'.links = db.links ++ ids'.map (fun t => (id, t)) ∧ (b = true → ids' = ids)) ∧
      ((∀ k, fails k = false) → b = true) := by
  induction ids with
  | nil => intro db n; exact ⟨db, true, rfl, rfl, rfl, rfl, ⟨[], .slnil, by simp, fun _ => rfl⟩, fun _ => rfl⟩
  | cons t ids ih =>
    intro db n
    rw [linkLoop]
    by_cases hf : fails n
    · rw [if_pos hf]
      exact ⟨db, false, rfl, rfl, rfl, rfl, ⟨[], List.nil_sublist _, by simp, fun h => by cases h⟩,
        fun h => by simp [h n] at hf⟩
    · rw [if_neg hf]
      obtain ⟨db', b, e, h1, h2, h3, ⟨ids', h4, h5, h6⟩, h7⟩ := ih { db with links := db.links ++ [(id, t)] } (n + 1)
      refine ⟨db', b, e, h1, h2, h3, ⟨t :: ids', h4.cons_cons t, ?_, fun h => by rw [h6 h]⟩, h7⟩
      rw [h5]
      simp

end Verif.Catalogue
