/-
Model of the posts, timelines and the social graph of the social network example (examples/dsb_sn/workflow/socialnetwork).

Simplifications that hold for the whole file:
* user and post identifiers are integers; the decimal strings that the services make from them are different for different numbers
  (`strconv.FormatInt`), so caches are maps from identifiers;
* timestamps of posts and of relationships are left out: no method returns them;
* databases behave like MongoDB (the user timelines need its `$each` and `$position`); databases and caches return no errors by
  themselves, but a cached value may disappear (`Op.lose`): that is what the caches of the repository allow;
* a method runs alone, and the goroutines inside a method run one after another (`Conc.lean` has methods at the same time, and
  `C125_compose`, `C125_follow` and `C125_unfollow` show that the order of the goroutines does not matter).
-/
namespace Verif.Social

abbrev Id := Int

/-- A post (DataModels.go lines 47-57): everything but the identifier is `content`. -/
structure Post where
  id : Id
  content : List Char
  deriving DecidableEq, Repr

/-- A cache. -/
abbrev Map (α : Type) := Id → Option α

/-- `Cache.Put`. -/
def Map.put {α : Type} (m : Map α) (k : Id) (v : α) : Map α := fun x => if x = k then some v else m x

/-- A key that is evicted. -/
def Map.drop {α : Type} (m : Map α) (k : Id) : Map α := fun x => if x = k then none else m x

/-- `UserInfo` (SocialGraphService.go lines 46-50) in the database.  The lists have the values of the field `userid`
(lines 165, 187): the services look for `followeeid` and `followerid`. -/
structure UserInfo where
  user : Id
  followers : List Id
  followees : List Id
  deriving DecidableEq, Repr

/-- What the social graph keeps: `social-graph` and the two kinds of keys in the cache. -/
structure Graph where
  users : List UserInfo
  followers : Map (List Id)
  followees : Map (List Id)

/-- Changes the first element that fits: `UpdateOne`. -/
def updateFirst {α : Type} (p : α → Bool) (f : α → α) : List α → List α
  | [] => []
  | x :: l => if p x then f x :: l else x :: updateFirst p f l

/-- `GetFollowers` (lines 65-102).  Values from the database have no `followerid`, so that the identifiers are 0 (lines 92-95). -/
def Graph.getFollowers (g : Graph) (u : Id) : Graph × Option (List Id) :=
  match g.followers u with
  | some l => (g, some l)
  | none =>
    match g.users.find? (·.user = u) with
    | none => (g, none)
    | some info =>
      let l := info.followers.map fun _ => 0
      ({ g with followers := g.followers.put u l }, some l)

/-- `GetFollowees` (lines 105-145). -/
def Graph.getFollowees (g : Graph) (u : Id) : Graph × Option (List Id) :=
  match g.followees u with
  | some l => (g, some l)
  | none =>
    match g.users.find? (·.user = u) with
    | none => (g, none)
    | some info =>
      let l := info.followees.map fun _ => 0
      ({ g with followees := g.followees.put u l }, some l)

/-- `Follow` (lines 148-222): two updates of the database (no error if there is no such user) and one of the cache. -/
def Graph.follow (g : Graph) (u v : Id) : Graph where
  users := updateFirst (·.user = v) (fun i => { i with followers := i.followers ++ [u] })
    (updateFirst (·.user = u) (fun i => { i with followees := i.followees ++ [v] }) g.users)
  followees := g.followees.put u ((g.followees u).getD [] ++ [v])
  followers := g.followers.put v ((g.followers v).getD [] ++ [u])

/-- `Unfollow` (lines 225-305). -/
def Graph.unfollow (g : Graph) (u v : Id) : Graph where
  users := updateFirst (·.user = v) (fun i => { i with followers := i.followers.filter (· ≠ u) })
    (updateFirst (·.user = u) (fun i => { i with followees := i.followees.filter (· ≠ v) }) g.users)
  followees := g.followees.put u (((g.followees u).getD []).filter (· ≠ v))
  followers := g.followers.put v (((g.followers v).getD []).filter (· ≠ u))

/-- `InsertUser` (lines 360-367). -/
def Graph.insertUser (g : Graph) (u : Id) : Graph := { g with users := g.users ++ [⟨u, [], []⟩] }

/-- A value in the cache of UserTimelineService: `[]PostInfo` (UserTimelineService.go line 191) or `[]int64` (line 133).  A value of
the second kind cannot be read as one of the first kind: `Get` returns an error. -/
inductive Entry where
  | infos (posts : List Id)
  | ids (posts : List Id)
  deriving DecidableEq, Repr

/-- What UserTimelineService keeps: a document per user, the newest post first, and the cache. -/
structure Timelines where
  db : List (Id × List Id)
  cache : Map Entry

/-- `Get` of `[]PostInfo` (lines 63, 186): `none` is an error. -/
def Timelines.cached (t : Timelines) (u : Id) : Option (List Id) :=
  match t.cache u with
  | none => some []
  | some (.infos l) => some l
  | some (.ids _) => none

/-- The database part of `WriteUserTimeline` (lines 154-182). -/
def Timelines.store (t : Timelines) (post u : Id) : List (Id × List Id) :=
  if t.db.any (·.1 = u) then t.db.map fun d => if d.1 = u then (u, post :: d.2) else d
  else t.db ++ [(u, [post])]

/-- `WriteUserTimeline` (lines 148-192); the result says whether there was no error. -/
def Timelines.write (t : Timelines) (post u : Id) : Timelines × Bool :=
  match t.cached u with
  | none => (⟨t.store post u, t.cache⟩, false)
  | some l => (⟨t.store post u, t.cache.put u (.infos (l ++ [post]))⟩, true)

/-- Lines 79-116 of `ReadUserTimeline`: the posts of the database that are not in the cache.  `none` is an error. -/
def Timelines.older (t : Timelines) (u : Id) (start stop : Int) (l : List Id) : Option (List Id) :=
  if start + (l.length : Int) < stop then
    match t.db.find? (·.1 = u) with
    | none => none
    | some d => some ((d.2.take stop.toNat).filter fun p => !(l.contains p))
  else some []

/-- `ReadUserTimeline` (lines 55-145) without the call of `ReadPosts`. -/
def Timelines.read (t : Timelines) (u : Id) (start stop : Int) : Timelines × Option (List Id) :=
  if stop ≤ start ∨ start < 0 then (t, some [])
  else
    match t.cached u with
    | none => (t, none)
    | some l =>
      match t.older u start stop l with
      | none => (t, none)
      | some [] => (t, some l)
      | some (p :: new) => ({ t with cache := t.cache.put u (.ids (p :: new ++ l)) }, some (p :: new ++ l))

/-- The cache part of `WriteHomeTimeline` (HomeTimelineService.go lines 50-62): the post is appended for the users of a set, in any
order. -/
def Map.append (m : Map (List Id)) (post : Id) (to : List Id) : Map (List Id) :=
  fun x => if to.contains x then some ((m x).getD [] ++ [post]) else m x

/-- `ReadHomeTimeline` (lines 67-93) without the call of `ReadPosts`. -/
def readHome (m : Map (List Id)) (u : Id) (start stop : Int) : List Id :=
  if stop ≤ start ∨ start < 0 then []
  else
    let posts := (m u).getD []
    if start < posts.length then (posts.take (min stop posts.length).toNat).drop start.toNat else posts

/-- What PostStorageService keeps. -/
structure Posts where
  db : List Post
  cache : Map Post

/-- `StorePost` (PostStorageService.go lines 44-50). -/
def Posts.store (s : Posts) (p : Post) : Posts := { s with db := s.db ++ [p] }

/-- `ReadPost` (lines 53-76). -/
def Posts.read (s : Posts) (id : Id) : Option Post :=
  match s.cache id with
  | some p => some p
  | none => s.db.find? (·.id = id)

/-- The posts that `Mget` finds (lines 87-103): a post with the identifier 0 counts as missing. -/
def Posts.hits (s : Posts) (ids : List Id) : List Post := (ids.filterMap s.cache).filter fun p => p.id ≠ 0

/-- `FindMany` for the identifiers that are left (lines 105-130). -/
def Posts.misses (s : Posts) (ids : List Id) : List Post :=
  s.db.filter fun p => ids.contains p.id && !((s.hits ids).any fun q => q.id = p.id)

/-- `ReadPosts` (lines 79-144). -/
def Posts.readMany (s : Posts) (ids : List Id) : Posts × List Post :=
  ({ s with cache := (s.misses ids).foldl (fun c p => c.put p.id p) s.cache }, s.hits ids ++ s.misses ids)

/-- All services together. -/
structure Net where
  graph : Graph
  timelines : Timelines
  home : Map (List Id)
  posts : Posts

/-- Nothing is stored yet. -/
def Net.init : Net := ⟨⟨[], fun _ => none, fun _ => none⟩, ⟨[], fun _ => none⟩, fun _ => none, ⟨[], fun _ => none⟩⟩

/-- `WriteHomeTimeline` (HomeTimelineService.go lines 38-64): the followers and the mentioned users. -/
def Net.writeHome (n : Net) (post author : Id) (mentions : List Id) : Net × Bool :=
  match n.graph.getFollowers author with
  | (g, none) => ({ n with graph := g }, false)
  | (g, some l) => ({ n with graph := g, home := n.home.append post (l ++ mentions) }, true)

/-- The second half of `ComposePost` (ComposePostService.go lines 74-111), with the users that are mentioned.  The three calls work on
different data: their order does not matter. -/
def Net.compose (n : Net) (p : Post) (author : Id) (mentions : List Id) : Net × Bool :=
  let t := n.timelines.write p.id author
  let h := ({ n with posts := n.posts.store p, timelines := t.1 } : Net).writeHome p.id author mentions
  (h.1, t.2 && h.2)

/-- A cached value that can be lost. -/
inductive Key where
  | followers (u : Id)
  | followees (u : Id)
  | timeline (u : Id)
  | home (u : Id)
  | post (id : Id)
  deriving DecidableEq, Repr

/-- The calls of the services; `lose` stands for a cache that forgets a value. -/
inductive Op where
  | insertUser (u : Id)
  | follow (u v : Id)
  | unfollow (u v : Id)
  | followers (u : Id)
  | followees (u : Id)
  | compose (p : Post) (author : Id) (mentions : List Id)
  | userTimeline (u : Id) (start stop : Int)
  | homeTimeline (u : Id) (start stop : Int)
  | readPost (id : Id)
  | readPosts (ids : List Id)
  | lose (k : Key)
  deriving DecidableEq, Repr

/-- What a call returns. -/
inductive Reply where
  | ok
  | error
  | ids (l : List Id)
  | posts (l : List Post)
  deriving DecidableEq, Repr

/-- Forgets a cached value. -/
def Net.lose (n : Net) : Key → Net
  | .followers u => { n with graph := { n.graph with followers := n.graph.followers.drop u } }
  | .followees u => { n with graph := { n.graph with followees := n.graph.followees.drop u } }
  | .timeline u => { n with timelines := { n.timelines with cache := n.timelines.cache.drop u } }
  | .home u => { n with home := n.home.drop u }
  | .post id => { n with posts := { n.posts with cache := n.posts.cache.drop id } }

/-- A list of identifiers, or an error. -/
def Reply.ofIds : Option (List Id) → Reply
  | some l => .ids l
  | none => .error

/-- `ReadPosts` for what a timeline has; the posts are not used (HomeTimelineService.go lines 88-91, UserTimelineService.go
lines 121-143). -/
def Net.fetch (n : Net) : Option (List Id) → Net
  | none => n
  | some l => { n with posts := (n.posts.readMany l).1 }

/-- One call.  An empty range returns before `ReadPosts`, which would change nothing. -/
def Net.step (n : Net) : Op → Net × Reply
  | .insertUser u => ({ n with graph := n.graph.insertUser u }, .ok)
  | .follow u v => ({ n with graph := n.graph.follow u v }, .ok)
  | .unfollow u v => ({ n with graph := n.graph.unfollow u v }, .ok)
  | .followers u => ({ n with graph := (n.graph.getFollowers u).1 }, .ofIds (n.graph.getFollowers u).2)
  | .followees u => ({ n with graph := (n.graph.getFollowees u).1 }, .ofIds (n.graph.getFollowees u).2)
  | .compose p a ms => ((n.compose p a ms).1, if (n.compose p a ms).2 then .ok else .error)
  | .userTimeline u start stop =>
    let r := n.timelines.read u start stop
    (({ n with timelines := r.1 } : Net).fetch r.2, .ofIds r.2)
  | .homeTimeline u start stop =>
    let l := readHome n.home u start stop
    (n.fetch (some l), .ids l)
  | .readPost id => (n, match n.posts.read id with | some p => .posts [p] | none => .error)
  | .readPosts ids => ({ n with posts := (n.posts.readMany ids).1 }, .posts (n.posts.readMany ids).2)
  | .lose k => (n.lose k, .ok)

/-- The state after a history, the latest call first. -/
def after : List Op → Net
  | [] => .init
  | o :: h => ((after h).step o).1

/-- What a call returns after a history. -/
def reply (h : List Op) (o : Op) : Reply := ((after h).step o).2

end Verif.Social
