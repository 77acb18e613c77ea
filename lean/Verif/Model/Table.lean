import Verif.Model.Util
/-
Model of the sorted tables of source.c, route.c and xroute.c: the comparison functions, the
binary search, insertion and removal.
-/
namespace Babel

/-- C `memcmp` on two arrays; only the sign of the result is used by the callers.  (In C both
arrays have the same length; for lists of different lengths the shorter one comes first.) -/
def memcmp : Bytes → Bytes → Ordering
  | [], [] => .eq
  | [], _ :: _ => .lt
  | _ :: _, [] => .gt
  | a :: as, b :: bs => if a < b then .lt else if b < a then .gt else memcmp as bs

/-- The comparison `if(a < b) return -1; if(a > b) return 1;` on integers. -/
def cmpNat (a b : Nat) : Ordering := if a < b then .lt else if a > b then .gt else .eq

/-- Destination prefix and source prefix, the key of routes and redistributed routes. -/
structure PKey where
  prefix_ : Bytes
  plen : Nat
  srcPrefix : Bytes
  srcPlen : Nat
deriving DecidableEq, Repr, Inhabited

/-- `!is_default(src_prefix, src_plen)`: the key is source-specific. -/
def PKey.isSS (k : PKey) : Bool := !isDefault k.srcPrefix k.srcPlen

/-- Key of a source: router-id and prefixes. -/
structure SKey where
  id : Bytes
  key : PKey
deriving DecidableEq, Repr, Inhabited

/-- source.c:40-71 `source_compare`.  `Ordering.then` is `if(rc != 0) return rc;`. -/
def sourceCompare (a b : SKey) : Ordering :=
  (memcmp a.id b.id).then <|
  (cmpNat a.key.plen b.key.plen).then <|
  (memcmp a.key.prefix_ b.key.prefix_).then <|
  (cmpNat a.key.srcPlen b.key.srcPlen).then <|
  memcmp a.key.srcPrefix b.key.srcPrefix

/-- xroute.c:46-72 `xroute_compare`. -/
def xrouteCompare (a b : PKey) : Ordering :=
  (cmpNat a.plen b.plen).then <|
  (memcmp a.prefix_ b.prefix_).then <|
  (cmpNat a.srcPlen b.srcPlen).then <|
  memcmp a.srcPrefix b.srcPrefix

/-- route.c:57-93 `route_compare`. -/
def routeCompare (a b : PKey) : Ordering :=
  if !a.isSS && b.isSS then .gt
  else if a.isSS && !b.isSS then .lt
  else
    (memcmp a.prefix_ b.prefix_).then <|
    (cmpNat a.plen b.plen).then <|
    if a.isSS then (memcmp a.srcPrefix b.srcPrefix).then (cmpNat a.srcPlen b.srcPlen)
    else .eq

/-- Result of `find_*_slot`: the index, or (via `*new_return`) where to insert. -/
inductive Slot where
  | found (i : Nat)
  | missing (n : Nat)
deriving DecidableEq, Repr

/-- The loop of source.c:87-103 / route.c:111-127 / xroute.c:87-103.  `c m` is the result of
comparing the key looked for with entry `m`. -/
def bsLoop (c : Nat → Ordering) (p g : Int) : Slot :=
  if h : p ≤ g then
    let m := (p + g) / 2
    match c m.toNat with
    | .eq => .found m.toNat
    | .lt => bsLoop c p (m - 1)
    | .gt => bsLoop c (m + 1) g
  else .missing p.toNat
termination_by (g + 1 - p).toNat
decreasing_by all_goals omega

/-- source.c:73-104 / route.c:98-128 / xroute.c:74-104. -/
def findSlotIdx (n : Nat) (c : Nat → Ordering) : Slot :=
  if n < 1 then .missing 0 else bsLoop c 0 ((n : Int) - 1)

/-- `find_*_slot` on a table whose entries have keys `key e`. -/
def findSlot [Inhabited α] (cmp : κ → κ → Ordering) (key : α → κ) (t : List α) (k : κ) : Slot :=
  findSlotIdx t.length (fun m => cmp k (key t[m]!))

/-- The `memmove`-and-store insertion (source.c:163-167, route.c:209-213, xroute.c:139-150). -/
def insertAt (t : List α) (n : Nat) (e : α) : List α := t.take n ++ e :: t.drop n

/-- The `memmove` removal (route.c:260-264, xroute.c:174-177). -/
def removeAt (t : List α) (n : Nat) : List α := t.take n ++ t.drop (n + 1)

/-- Lookup: source.c:136-137, xroute.c:107-116, and the slot part of route.c:130-162. -/
def tFind [Inhabited α] (cmp : κ → κ → Ordering) (key : α → κ) (t : List α) (k : κ) : Option α :=
  match findSlot cmp key t k with
  | .found i => t[i]?
  | .missing _ => none

/-- Insertion of an entry unless its key is present: source.c:126-170 (`find_source` with
`create`), xroute.c:118-153 (`add_xroute`), and the `i < 0` branch of route.c:193-213.
Allocation failure is not modelled. -/
def tAdd [Inhabited α] (cmp : κ → κ → Ordering) (key : α → κ) (t : List α) (e : α) : List α :=
  match findSlot cmp key t (key e) with
  | .found _ => t
  | .missing n => insertAt t n e

/-- Removal of the entry with a given key: slot removal in `flush_route` (route.c:248-266) and
`flush_xroute` (xroute.c:169-177), where the entry was found by lookup. -/
def tDel [Inhabited α] (cmp : κ → κ → Ordering) (key : α → κ) (t : List α) (k : κ) : List α :=
  match findSlot cmp key t k with
  | .found i => removeAt t i
  | .missing _ => t

/-- The operations a client performs on a table. -/
inductive TOp (α κ : Type) where
  | add (e : α)
  | del (k : κ)

def tStep [Inhabited α] (cmp : κ → κ → Ordering) (key : α → κ) (t : List α) : TOp α κ → List α
  | .add e => tAdd cmp key t e
  | .del k => tDel cmp key t k

/-- The table after a history of operations, starting empty. -/
def tRun [Inhabited α] (cmp : κ → κ → Ordering) (key : α → κ) (ops : List (TOp α κ)) : List α :=
  ops.foldl (tStep cmp key) []

end Babel
