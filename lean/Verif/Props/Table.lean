import Verif.Lemmas.RouteTable
set_option linter.unusedSimpArgs false
set_option linter.unusedVariables false
/-
C21: the sorted tables behave as maps.  C24 (table part): the array of slots stays sorted,
without empty slots, and stores exactly one route per destination and neighbour.
-/
namespace Babel
open Spec

/-! ### The comparison functions are total orders on keys -/

theorem C21_source_order : TotalOrder sourceCompare := sourceCompare_order
theorem C21_xroute_order : TotalOrder xrouteCompare := xrouteCompare_order

/-- `route_compare` calls two keys equal exactly when they are, for keys as the daemon builds
them. -/
theorem C21_route_order {a b : PKey} (ha : Canonical a) (hb : Canonical b) :
    routeCompare a b = .eq ↔ a = b := routeCompare_canonical ha hb

/-- Without the canonicity assumption two different keys can share a slot: the two spellings of
"any source". -/
theorem C21_route_order_needs_canonical :
    ∃ a b : PKey, a ≠ b ∧ routeCompare a b = .eq :=
  ⟨⟨zeroes16, 0, zeroes16, 0⟩, ⟨zeroes16, 0, v4prefix, 96⟩, by decide, by decide⟩

example : Canonical ⟨v4prefix, 96, v4prefix, 96⟩ := by intro _; decide
example : Canonical ⟨zeroes16, 0, zeroes16, 0⟩ := by intro _; decide
example : routeCompare ⟨zeroes16, 0, llprefix, 64⟩ ⟨zeroes16, 0, zeroes16, 0⟩ = .lt := by decide
example : sourceCompare ⟨[1], ⟨zeroes16, 0, zeroes16, 0⟩⟩ ⟨[1], ⟨v4prefix, 96, v4prefix, 96⟩⟩ = .lt := by
  decide

/-! ### Tables are maps -/

section
variable {α κ : Type} [Inhabited α] [DecidableEq κ] {cmp : κ → κ → Ordering} {key : α → κ}

/-- After any history of additions and removals the table is strictly sorted by key; in particular
no key occurs twice. -/
theorem C21_table_sorted (ho : TotalOrder cmp) (ops : List (TOp α κ)) :
    Sorted cmp key (tRun cmp key ops) := by
  induction ops using snoc_induction with
  | nil => exact List.Pairwise.nil
  | snoc ops o ih =>
    rw [tRun_snoc]
    cases o with
    | add e => exact tAdd_sorted ho.pre ih
    | del k => exact tDel_sorted ih

/-- After any history of additions and removals, the binary search finds under each key exactly
the entry that a map with the same history contains, and nothing if the map contains nothing. -/
theorem C21_table_is_map (ho : TotalOrder cmp) (ops : List (TOp α κ)) (k : κ) :
    tFind cmp key (tRun cmp key ops) k = Map.run key ops k := by
  induction ops using snoc_induction generalizing k with
  | nil => rfl
  | snoc ops o ih =>
    have hs := C21_table_sorted (key := key) ho ops
    have hs' := C21_table_sorted (key := key) ho (ops ++ [o])
    have aux : ∀ e, tFind cmp key (tRun cmp key ops) k = some e ↔
        e ∈ tRun cmp key ops ∧ k = key e := by
      intro e; rw [tFind_iff ho.pre hs, ho.eq_iff]
    apply Option.ext
    intro e
    rw [tFind_iff ho.pre hs', ho.eq_iff, tRun_snoc, mapRun_snoc]
    cases o with
    | add x =>
      simp only [tStep, Map.step]
      rw [mem_tAdd ho.pre, ih (key x), ← ih k]
      by_cases hk : k = key x
      · subst hk
        rw [← ih]
        cases hm : tFind cmp key (tRun cmp key ops) (key x) with
        | none =>
          have := fun e => aux e
          rw [hm] at this
          simp only [and_true, if_true, Option.some.injEq]
          constructor
          · rintro ⟨h | h, he⟩
            · exact absurd ((this e).2 ⟨h, he⟩) (by simp)
            · exact h.symm
          · rintro rfl; exact ⟨Or.inr rfl, rfl⟩
        | some y =>
          have hy := (aux e)
          rw [hm] at hy
          rw [if_neg (by simp)]
          rw [hy]
          simp
      · simp only [hk, false_and, if_false]
        rw [aux]
        constructor
        · rintro ⟨h | ⟨h, _⟩, he⟩
          · exact ⟨h, he⟩
          · subst h; exact absurd he hk
        · rintro ⟨h, he⟩; exact ⟨Or.inl h, he⟩
    | del x =>
      simp only [tStep, Map.step]
      rw [mem_tDel ho.pre hs, ← ih k, Ne, ho.eq_iff]
      by_cases hk : k = x
      · subst hk
        simp only [if_true]
        constructor
        · rintro ⟨⟨_, h⟩, h'⟩; exact absurd h' h
        · intro h; cases h
      · simp only [hk, if_false]
        rw [aux]
        constructor
        · rintro ⟨⟨h, _⟩, h'⟩; exact ⟨h, h'⟩
        · rintro ⟨h, h'⟩; exact ⟨⟨h, fun e => hk (h'.trans e.symm)⟩, h'⟩
end

/-- The source table (source.c) is a map. -/
theorem C21_sources (ops : List (TOp Source SKey)) (k : SKey) :
    tFind sourceCompare Source.skey (tRun sourceCompare Source.skey ops) k =
      Map.run Source.skey ops k := C21_table_is_map sourceCompare_order ops k

/-- The table of redistributed routes (xroute.c) is a map. -/
theorem C21_xroutes (ops : List (TOp Xroute PKey)) (k : PKey) :
    tFind xrouteCompare Xroute.key (tRun xrouteCompare Xroute.key ops) k =
      Map.run Xroute.key ops k := C21_table_is_map xrouteCompare_order ops k

/-- A history: three additions out of order, one of them a duplicate, and a removal. -/
example :
    let e := fun n m => (⟨⟨zeroes16, n, zeroes16, 0⟩, m, 0, 0⟩ : Xroute)
    tRun xrouteCompare Xroute.key
      [.add (e 3 1), .add (e 1 1), .add (e 2 1), .add (e 1 7), .add (e 5 1), .del (e 3 1).key]
      = [e 1 1, e 2 1, e 5 1] := by
  decide +kernel

/-! ### The route table -/

/-- What route.c does to its table. -/
inductive ROp where
  /-- `insert_route` of a route for which `find_route` found nothing. -/
  | insert (r : Route)
  /-- `flush_route`. -/
  | remove (k : PKey) (n : NeighId)
  /-- `move_installed_route`. -/
  | move (k : PKey) (n : NeighId)
  /-- assignment to fields other than the destination and the neighbour. -/
  | modify (k : PKey) (n : NeighId) (f : Route → Route)

def rStep (t : RTable) : ROp → RTable
  | .insert r => if (rtFindRoute t r.key r.neigh).isNone then rtInsert t r else t
  | .remove k n => rtRemove t k n
  | .move k n => rtMove t k n
  | .modify k n f => rtModify t k n f

/-- The same operation on the flat list of routes. -/
def flatStep (l : List Route) : ROp → List Route
  | .insert r => if (flatFind l r.key r.neigh).isNone then flatInsert l r else l
  | .remove k n => flatRemove l k n
  | .move k n => flatMove l k n
  | .modify k n f => flatModify l k n f

/-- Operations as the daemon performs them. -/
def ROp.Ok : ROp → Prop
  | .insert r => Canonical r.key
  | .remove k _ => Canonical k
  | .move k _ => Canonical k
  | .modify k _ f => Canonical k ∧ (∀ r, (f r).key = r.key) ∧ (∀ r, (f r).neigh = r.neigh)

theorem rRun_refines (ops : List ROp) (hok : ∀ o ∈ ops, o.Ok) :
    Refines (ops.foldl rStep []) (ops.foldl flatStep []) := by
  induction ops using snoc_induction with
  | nil => exact Refines.empty
  | snoc ops o ih =>
    have ih := ih (fun x hx => hok x (List.mem_append_left _ hx))
    have ho := hok o (by simp)
    rw [List.foldl_append, List.foldl_append]
    simp only [List.foldl_cons, List.foldl_nil]
    cases o with
    | insert r =>
      simp only [rStep, flatStep]
      rw [refines_find ih ho]
      cases hf : flatFind (ops.foldl flatStep []) r.key r.neigh with
      | none => simp only [Option.isNone_none, if_true]; exact refines_insert ih ho hf
      | some x => simp only [Option.isNone_some, Bool.false_eq_true, if_false]; exact ih
    | remove k n => exact refines_remove ih ho n
    | move k n => exact refines_move ih ho n
    | modify k n f => exact refines_modify ih ho.1 n f ho.2.1 ho.2.2

/-- After any history the array of slots is strictly sorted by destination and source prefix,
has no empty slot, all routes of a slot are for the same destination, and no slot has two routes
through the same neighbour. -/
theorem C24_route_table_shape (ops : List ROp) (hok : ∀ o ∈ ops, o.Ok) :
    let t := ops.foldl rStep []
    Sorted routeCompare headKey t ∧
    (∀ s ∈ t, s ≠ []) ∧
    (∀ s ∈ t, ∀ r ∈ s, r.key = headKey s) ∧
    (∀ s ∈ t, s.Pairwise (fun a b => a.neigh ≠ b.neigh)) := by
  have h := rRun_refines ops hok
  refine ⟨h.sorted, h.nonempty, fun s hs r hr => h.key_of_mem hs hr, ?_⟩
  intro s hs
  rw [← h.slots s hs]
  exact onePerNeigh_slot h.uniq _

/-- After any history, looking up a route by destination and neighbour, and looking up the
selected route of a destination, give what the flat list of routes says. -/
theorem C24_route_table_lookup (ops : List ROp) (hok : ∀ o ∈ ops, o.Ok) (k : PKey)
    (hk : Canonical k) (n : NeighId) :
    rtFindRoute (ops.foldl rStep []) k n = flatFind (ops.foldl flatStep []) k n ∧
    rtFindInstalled (ops.foldl rStep []) k =
      (slotOf (ops.foldl flatStep []) k).head?.bind
        (fun r => if r.installed then some r else none) := by
  have h := rRun_refines ops hok
  exact ⟨refines_find h hk n, refines_findInstalled h hk⟩

/-- Every route of the flat list is in the table and conversely. -/
theorem C24_route_table_same_routes (ops : List ROp) (hok : ∀ o ∈ ops, o.Ok) (r : Route) :
    r ∈ (ops.foldl rStep []).flatten ↔ r ∈ ops.foldl flatStep [] := by
  have h := rRun_refines ops hok
  rw [List.mem_flatten]
  constructor
  · rintro ⟨s, hs, hr⟩
    rw [← h.slots s hs, mem_slotOf] at hr
    exact hr.1
  · intro hr
    obtain ⟨s, hs, hk⟩ := h.cover r hr
    refine ⟨s, hs, ?_⟩
    rw [← h.slots s hs, mem_slotOf]
    exact ⟨hr, hk.symm⟩

/-- A history with two neighbours on one destination, a move to the head, and a removal that
empties a slot. -/
example :
    let k := fun n => (⟨zeroes16, n, zeroes16, 0⟩ : PKey)
    let r := fun n b => ({ (default : Route) with key := k n, neigh := b } : Route)
    [ROp.insert (r 7 1), .insert (r 3 1), .insert (r 7 2), .insert (r 7 2), .move (k 7) 2,
      .remove (k 3) 1].foldl rStep [] = [[r 7 2, r 7 1]] := by
  decide +kernel

end Babel
