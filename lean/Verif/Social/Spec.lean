import Verif.Social.Model
/-
What the social network should answer, as functions of the calls so far (the latest first).  Nothing here mentions databases or caches.
-/
namespace Verif.Social

/-- Who follows whom: pairs of follower and followee, the oldest first; a relationship that is made twice is there twice. -/
def edges : List Op → List (Id × Id)
  | [] => []
  | .follow u v :: h => edges h ++ [(u, v)]
  | .unfollow u v :: h => (edges h).filter (· ≠ (u, v))
  | _ :: h => edges h

/-- The followers of a user. -/
def followersOf (u : Id) (h : List Op) : List Id := ((edges h).filter (·.2 = u)).map (·.1)

/-- The users that a user follows. -/
def followeesOf (u : Id) (h : List Op) : List Id := ((edges h).filter (·.1 = u)).map (·.2)

/-- The user was inserted, or somebody followed the user or tried to stop following: users that GetFollowers knows. -/
def known (u : Id) (h : List Op) : Bool :=
  h.any fun o => match o with
    | .insertUser x => x == u
    | .follow _ x => x == u
    | .unfollow _ x => x == u
    | _ => false

/-- The user was inserted, or followed somebody or tried to stop following: users that GetFollowees knows. -/
def knownFollower (u : Id) (h : List Op) : Bool :=
  h.any fun o => match o with
    | .insertUser x => x == u
    | .follow x _ => x == u
    | .unfollow x _ => x == u
    | _ => false

/-- The posts of a user, the oldest first. -/
def postsOf (u : Id) : List Op → List Id
  | [] => []
  | .compose p a _ :: h => if a = u then postsOf u h ++ [p.id] else postsOf u h
  | _ :: h => postsOf u h

/-- The posts for a user, the oldest first: those that mention the user, and those of the authors that the user followed at that
time.  Posts of unknown authors are not delivered. -/
def newsOf (u : Id) : List Op → List Id
  | [] => []
  | .compose p a ms :: h =>
    if known a h = true ∧ (u ∈ ms ∨ (u, a) ∈ edges h) then newsOf u h ++ [p.id] else newsOf u h
  | _ :: h => newsOf u h

/-- All posts. -/
def stored : List Op → List Post
  | [] => []
  | .compose p _ _ :: h => stored h ++ [p]
  | _ :: h => stored h

/-- The elements from `start` up to but not including `stop`. -/
def slice (l : List Id) (start stop : Nat) : List Id := (l.take stop).drop start

end Verif.Social
