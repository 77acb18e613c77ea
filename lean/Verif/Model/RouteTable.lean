import Verif.Model.Types
/-
Model of the route table of route.c: an array of slots sorted by destination, each slot being the
linked list of the routes to that destination.
-/
namespace Babel

/-- route.c:43 `routes`: the array of linked lists (first element of each list = head). -/
abbrev RTable := List (List Route)

/-- Key of the head of a slot; `route_compare` (route.c:57) looks at the head route. -/
def headKey (s : List Route) : PKey := (s.headD default).key

/-- route.c:98-128 `find_route_slot`. -/
def findRouteSlot (t : RTable) (k : PKey) : Slot := findSlot routeCompare headKey t k

/-- route.c:130-150 `find_route`. -/
def rtFindRoute (t : RTable) (k : PKey) (n : NeighId) : Option Route :=
  match findRouteSlot t k with
  | .missing _ => none
  | .found i => t[i]!.find? (fun r => r.neigh == n)

/-- route.c:152-162 `find_installed_route`. -/
def rtFindInstalled (t : RTable) (k : PKey) : Option Route :=
  match findRouteSlot t k with
  | .missing _ => none
  | .found i => if (t[i]!.headD default).installed then t[i]!.head? else none

/-- route.c:193-224 `insert_route` (allocation failure not modelled): a new slot, or the end of
the existing list. -/
def rtInsert (t : RTable) (r : Route) : RTable :=
  match findRouteSlot t r.key with
  | .missing n => insertAt t n [r]
  | .found i => t.modify i (· ++ [r])

/-- The unlinking part of `flush_route`, route.c:248-279.  The route is identified by its
destination and neighbour; an emptied slot is removed from the array. -/
def rtRemove (t : RTable) (k : PKey) (n : NeighId) : RTable :=
  match findRouteSlot t k with
  | .missing _ => t
  | .found i =>
    let s := t[i]!.eraseP (fun r => r.neigh == n)
    if s.isEmpty then removeAt t i else t.set i s

/-- route.c:424-438 `move_installed_route`, on one slot. -/
def moveToHead (s : List Route) (n : NeighId) : List Route :=
  match s.find? (fun r => r.neigh == n) with
  | none => s
  | some r => r :: s.eraseP (fun r => r.neigh == n)

/-- route.c:424-438 with the slot lookup done by the callers (route.c:481, 563). -/
def rtMove (t : RTable) (k : PKey) (n : NeighId) : RTable :=
  match findRouteSlot t k with
  | .missing _ => t
  | .found i => t.modify i (moveToHead · n)

/-- Assignment to fields of the route `(k, n)` through a pointer. -/
def rtModify (t : RTable) (k : PKey) (n : NeighId) (f : Route → Route) : RTable :=
  match findRouteSlot t k with
  | .missing _ => t
  | .found i => t.modify i (·.map (fun r => if r.neigh == n then f r else r))

/-! ### Flat view

The rest of the model uses one list of routes; the slot of a destination is the sublist of the
routes with that key.  `Lemmas/RouteTable.lean` proves that the array of linked lists above
refines it. -/

/-- The routes to one destination, in order. -/
def slotOf (l : List Route) (k : PKey) : List Route := l.filter (fun r => r.key == k)

def flatFind (l : List Route) (k : PKey) (n : NeighId) : Option Route :=
  l.find? (fun r => r.key == k && r.neigh == n)

def flatInsert (l : List Route) (r : Route) : List Route := l ++ [r]

def flatRemove (l : List Route) (k : PKey) (n : NeighId) : List Route :=
  l.filter (fun r => !(r.key == k && r.neigh == n))

def flatMove (l : List Route) (k : PKey) (n : NeighId) : List Route :=
  match flatFind l k n with
  | none => l
  | some r => r :: flatRemove l k n

def flatModify (l : List Route) (k : PKey) (n : NeighId) (f : Route → Route) : List Route :=
  l.map (fun r => if r.key == k && r.neigh == n then f r else r)

end Babel
