import Verif.Social.Model
import Verif.Interleave.Model
/-
The methods of the social network's services as programs, whose calls of caches and databases other calls can come between.  Each call of
a cache or a database (`Get`, `Put`, `FindOne`, `FindMany`, `UpdateOne`, `UpdateMany`, `InsertOne`) happens at one moment, as with Redis,
memcached and MongoDB.  The result says whether there was no error.
-/
namespace Verif.Social
open Verif.Interleave (Prog)

/-- A call that only changes the store. -/
def change {σ ρ : Type} (f : σ → σ) (next : Prog σ ρ) : Prog σ ρ := .act f fun _ => next

/-- A call that only reads. -/
def look {σ ρ : Type} (next : σ → Prog σ ρ) : Prog σ ρ := .act id next

/-! ### ComposePost -/

/-- `StorePost` (PostStorageService.go lines 44-50). -/
def storePost (p : Post) : Prog Net Bool := change (fun n => { n with posts := n.posts.store p }) (.done true)

/-- The end of `WriteUserTimeline` (UserTimelineService.go lines 183-191): the cache. -/
def cacheTimeline (post u : Id) : Prog Net Bool :=
  look fun n => match n.timelines.cached u with
    | none => .done false
    | some l => change (fun n => { n with timelines := { n.timelines with cache := n.timelines.cache.put u (.infos (l ++ [post])) } }) (.done true)

/-- Line 166: a new document. -/
def insertTimeline (post u : Id) (n : Net) : Net := { n with timelines := { n.timelines with db := n.timelines.db ++ [(u, [post])] } }

/-- Line 178: `UpdateMany` with `$push`. -/
def pushTimeline (post u : Id) (n : Net) : Net :=
  { n with timelines := { n.timelines with db := n.timelines.db.map fun d => if d.1 = u then (u, post :: d.2) else d } }

/-- `WriteUserTimeline` (lines 148-192): it looks for the user's document (line 155), and inserts one or adds to it. -/
def writeTimeline (post u : Id) : Prog Net Bool :=
  look fun n =>
    if n.timelines.db.any (·.1 = u) then change (pushTimeline post u) (cacheTimeline post u)
    else change (insertTimeline post u) (cacheTimeline post u)

/-- The loop of `WriteHomeTimeline` (HomeTimelineService.go lines 50-62) over the users of a set, in some order. -/
def pushHome (post : Id) : List Id → Prog Net Bool
  | [] => .done true
  | u :: us => look fun n =>
    change (fun m => { m with home := m.home.put u ((n.home u).getD [] ++ [post]) }) (pushHome post us)

/-- `WriteHomeTimeline` (lines 38-64) with `GetFollowers` (SocialGraphService.go lines 65-102).  `order` is the order in which Go visits
the users of a set. -/
def writeHomeTimeline (order : List Id → List Id) (post author : Id) (mentions : List Id) : Prog Net Bool :=
  look fun n => match n.graph.followers author with
    | some l => pushHome post (order (l ++ mentions))
    | none => look fun n => match n.graph.users.find? (·.user = author) with
      | none => .done false
      | some info =>
        change (fun n => { n with graph := { n.graph with followers := n.graph.followers.put author (info.followers.map fun _ => 0) } })
          (pushHome post (order (info.followers.map (fun _ => 0) ++ mentions)))

/-- The order in which Go visits a set: each of its members once. -/
def Visits (order : List Id → List Id) : Prop := ∀ l, (order l).Nodup ∧ ∀ x, x ∈ order l ↔ x ∈ l

/-- The goroutines of `ComposePost` (ComposePostService.go lines 91-104). -/
def composeThreads (order : List Id → List Id) (p : Post) (author : Id) (mentions : List Id) : List (Prog Net Bool) :=
  [storePost p, writeTimeline p.id author, writeHomeTimeline order p.id author mentions]

/-! ### Follow and Unfollow -/

/-- The goroutines of `Follow` (SocialGraphService.go lines 155-211). -/
def followThreads (u v : Id) : List (Prog Graph Bool) :=
  [change (fun g => { g with users := updateFirst (·.user = u) (fun i => { i with followees := i.followees ++ [v] }) g.users }) (.done true),
   change (fun g => { g with users := updateFirst (·.user = v) (fun i => { i with followers := i.followers ++ [u] }) g.users }) (.done true),
   look fun g => look fun g' =>
     change (fun h => { h with followees := h.followees.put u ((g.followees u).getD [] ++ [v]) })
       (change (fun h => { h with followers := h.followers.put v ((g'.followers v).getD [] ++ [u]) }) (.done true))]

/-- The goroutines of `Unfollow` (lines 231-294). -/
def unfollowThreads (u v : Id) : List (Prog Graph Bool) :=
  [change (fun g => { g with users := updateFirst (·.user = u) (fun i => { i with followees := i.followees.filter (· ≠ v) }) g.users }) (.done true),
   change (fun g => { g with users := updateFirst (·.user = v) (fun i => { i with followers := i.followers.filter (· ≠ u) }) g.users }) (.done true),
   look fun g => look fun g' =>
     change (fun h => { h with followees := h.followees.put u (((g.followees u).getD []).filter (· ≠ v)) })
       (change (fun h => { h with followers := h.followers.put v (((g'.followers v).getD []).filter (· ≠ u)) }) (.done true))]

end Verif.Social
