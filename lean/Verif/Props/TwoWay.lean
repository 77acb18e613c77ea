import Verif.Lemmas.TwoWay2
import Verif.Props.Hello
/-
C73: a link has a finite cost only if it has worked in both directions.
-/
set_option linter.unusedVariables false
namespace Babel
open Spec

section
variable {Node : Type} [DecidableEq Node] {N : DNet Node} {X : Node → PKey → Prop}

theorem history_mem {L : List (Node → Talk)} (h : History N X L) {T : Node → Talk} (hT : T ∈ L) : ∃ H, History N X (T :: H) ∧ T :: H <:+ L := by
  induction h with
  | init T' hT' =>
    rw [List.mem_singleton] at hT
    subst hT
    exact ⟨[], .init _ hT', List.suffix_refl _⟩
  | @step T' H a ev t h ho hk ih =>
    rcases List.mem_cons.1 hT with rfl | hT
    · exact ⟨_, .step a ev t h ho hk, List.suffix_refl _⟩
    · obtain ⟨H', h1, h2⟩ := ih hT
      exact ⟨H', h1, h2.trans (List.suffix_cons ..)⟩

/-- C73: the cost of sending to a neighbour is infinite, or it is what the neighbour had computed, at some time in the past, as its cost of
receiving from a neighbour of its own whose address is one of ours. -/
theorem C73_told (hN : DNetOk N X) (hA : ∀ a n, ((N.cfg a).addr n).length = 16) {T : Node → Talk} {H : List (Node → Talk)} (h : History N X (T :: H))
    {a b : Node} {n : NeighId} {x : DNbr} (hx : (T a).d.nbr n = some x) (hb : N.peer a n = b) :
    x.link.txcost = INFINITY ∨ ∃ T' ∈ H, ∃ m y, (T' b).d.nbr m = some y ∧ ifUp (T' b).d.st ((N.cfg b).node.ifOf m) = true ∧
      (N.cfg b).addr m ∈ ((N.cfg a).ifs ((N.cfg a).node.ifOf n)).ll ∧ x.link.txcost = receiveCost N T' b m y % 65536 := by
  obtain ⟨s0, T0, H0, hL, g⟩ := history_inv hN hA h
  cases hL
  subst hb
  exact (g.nbrs a n x hx).tx

/-- C73: if the register of hellos received from a neighbour is not empty, the neighbour has sent a hello; in the same way for unicast
hellos. -/
theorem C73_heard (hN : DNetOk N X) (hA : ∀ a n, ((N.cfg a).addr n).length = 16) {T : Node → Talk} {H : List (Node → Talk)} (h : History N X (T :: H))
    {a b : Node} {n : NeighId} {x : DNbr} (hx : (T a).d.nbr n = some x) (hb : N.peer a n = b) :
    (x.link.hello.reach ≠ 0 → ∃ T' ∈ H, HasSaidHello T' b (penvOf (N.cfg a) n) false) ∧
    (x.link.uhello.reach ≠ 0 → ∃ T' ∈ H, HasSaidHello T' b (penvOf (N.cfg a) n) true) := by
  obtain ⟨s0, T0, H0, hL, g⟩ := history_inv hN hA h
  cases hL
  subst hb
  exact ⟨(g.nbrs a n x hx).hello, (g.nbrs a n x hx).uhello⟩

theorem rxcost_finite {now : Timeval} {i : LinkCfg} {l : Nbr} (h : rxcost now i l < INFINITY) : l.hello.reach ≠ 0 ∨ l.uhello.reach ≠ 0 := by
  apply Classical.byContradiction
  intro hc
  obtain ⟨h1, h2⟩ := not_or.1 hc
  have h1 : l.hello.reach = 0 := Classical.not_not.1 h1
  have h2 : l.uhello.reach = 0 := Classical.not_not.1 h2
  unfold rxcost at h
  rw [if_pos ⟨.inl (by rw [h1]; rfl), .inl (by rw [h2]; rfl)⟩] at h
  exact absurd h (Nat.lt_irrefl _)

theorem rxcost_le {now : Timeval} {i : LinkCfg} {l : Nbr} (h : i.cost ≤ INFINITY) : rxcost now i l ≤ INFINITY := by
  unfold rxcost
  split
  · exact Nat.le_refl _
  · split
    · exact Nat.min_le_right _ _
    · split
      · exact h
      · exact Nat.le_refl _

theorem cost_finite {now : Timeval} {i : LinkCfg} {l : Nbr} {c : Nat} (h : neighbourCost now i l = some c) (hc : c < INFINITY) :
    l.txcost < INFINITY ∧ rxcost now i l < INFINITY := by
  unfold neighbourCost at h
  simp only at h
  split at h
  · cases h
    exact absurd hc (Nat.lt_irrefl _)
  · split at h
    · cases h
      exact absurd hc (Nat.lt_irrefl _)
    · split at h
      · cases h
        exact absurd hc (Nat.lt_irrefl _)
      · exact ⟨by omega, by omega⟩

/-- C73: when the cost of a link between `a` and `b` is finite for `a`,
* `b` has sent a hello that `a` can read, and
* at some time in the past `b` had a finite cost of receiving from `a`, which is now the cost `a` uses for sending to it, and before that `a`
  had sent a hello that `b` can read.
Addresses belong to one router each, and the costs of interfaces are at most infinite. -/
theorem C73_both (hN : DNetOk N X) (hA : ∀ a n, ((N.cfg a).addr n).length = 16) (hC : ∀ a i, ((N.cfg a).ifs i).cost ≤ INFINITY)
    (hU : ∀ a b m i, (N.cfg b).addr m ∈ ((N.cfg a).ifs i).ll → N.peer b m = a) {T : Node → Talk} {H : List (Node → Talk)}
    (h : History N X (T :: H)) {a b : Node} {n : NeighId} {x : DNbr} (hx : (T a).d.nbr n = some x) (hb : N.peer a n = b) {c : Nat}
    (hc : neighbourCost (T a).d.st.now (linkCfgOf (N.cfg a) (T a).d.st ((N.cfg a).node.ifOf n)) x.link = some c) (hf : c < INFINITY) :
    (∃ T' ∈ H, ∃ u, HasSaidHello T' b (penvOf (N.cfg a) n) u) ∧
    ∃ T' H' m y, T' :: H' <:+ H ∧ (T' b).d.nbr m = some y ∧ N.peer b m = a ∧ receiveCost N T' b m y = x.link.txcost ∧
      receiveCost N T' b m y < INFINITY ∧ ∃ T'' ∈ H', ∃ u, HasSaidHello T'' a (penvOf (N.cfg b) m) u := by
  obtain ⟨h1, h2⟩ := cost_finite hc hf
  have hear : ∀ {T : Node → Talk} {H : List (Node → Talk)}, History N X (T :: H) → ∀ {a b : Node} {n : NeighId} {x : DNbr},
      (T a).d.nbr n = some x → N.peer a n = b → receiveCost N T a n x < INFINITY → ∃ T' ∈ H, ∃ u, HasSaidHello T' b (penvOf (N.cfg a) n) u := by
    intro T H h a b n x hx hb hr
    obtain ⟨g1, g2⟩ := C73_heard hN hA h hx hb
    rcases rxcost_finite hr with hr | hr
    · obtain ⟨T', k1, k2⟩ := g1 hr
      exact ⟨T', k1, _, k2⟩
    · obtain ⟨T', k1, k2⟩ := g2 hr
      exact ⟨T', k1, _, k2⟩
  refine ⟨hear h hx hb h2, ?_⟩
  rcases C73_told hN hA h hx hb with h3 | ⟨T', t1, m, y, t2, t3, t4, t5⟩
  · omega
  have hH : ∃ T0 H0, H = T0 :: H0 ∧ History N X H := by
    cases h with
    | init => cases t1
    | step a ev t h _ _ => exact ⟨_, _, rfl, h⟩
  obtain ⟨T0, H0, _, hH⟩ := hH
  obtain ⟨H', g1, g2⟩ := history_mem hH t1
  have hp := hU a b m _ t4
  have hle : receiveCost N T' b m y ≤ INFINITY := rxcost_le (hC b _)
  have hI : (INFINITY : Nat) = 65535 := rfl
  have he : receiveCost N T' b m y = x.link.txcost := by omega
  exact ⟨T', H', m, y, g2, t2, hp, he, by omega, hear g1 t2 hp (by omega)⟩

end

/-! ### Two routers -/

namespace DDemo

/-- Two daemons, on interface 10.  The address of `false` is fe80::1 and that of `true` is fe80::2. -/
def pair : DNet Bool where
  cfg a := { e with
    node := { Demo.cfg with ifOf := fun _ => 10, myid := Demo.rid (if a then 8 else 9) }
    ifs := fun _ => { dif with ll := [Demo.ll (if a then 2 else 1)] }
    addr := fun _ => Demo.ll (if a then 1 else 2) }
  peer a _ := !a

/-- An event at a router, or the arrival of the `j`th packet the other one has sent. -/
inductive Act
  | hello (a : Bool)
  | flush (a : Bool)
  | wait (a : Bool) (t : Int)
  | relay (a : Bool) (j : Nat)
  /-- A route to `Demo.key 1` is redistributed. -/
  | route (a : Bool)
  | tell (a : Bool)

structure Both where
  f : Talk
  t : Talk

def Both.get (s : Both) (a : Bool) : Talk := if a then s.t else s.f

def Both.put (s : Both) (a : Bool) (x : Talk) : Both := if a then { s with t := x } else { s with f := x }

def Both.event (s : Both) : Act → Option (Bool × TEv)
  | .hello a => some (a, .hello 10)
  | .flush a => some (a, .ev (.say 10 0 .flush))
  | .wait a t => some (a, .ev (.node (.tick ⟨t, 0⟩)))
  | .route a => some (a, .ev (.node (.kernelRoute true ⟨Demo.key 1, 0, 30, 4⟩)))
  | .tell a => some (a, .ev (.node (.flushUpdates 10)))
  | .relay a j => ((s.get (!a)).d.link 10).out[j]?.map fun p => (a, .ev (.packet 1 p.2 p.2.length [0xff]))

/-- No requests. -/
def silent (E : PEnv) (b : Bytes) : Bool := (parsePacket E b b.length).all fun x => x.2.all fun it => match it with
  | .request _ => false
  | .seqnoRequest .. => false
  | _ => true

def Both.allowed (s : Both) : Act → Bool
  | .wait _ t => decide (0 < t)
  | .relay a j => ((s.get (!a)).d.link 10).out[j]?.any fun p => decide (4 ≤ p.2.length) && silent (penvOf (pair.cfg a) 1) p.2
  | _ => true

/-- The states, newest first, if all events are allowed. -/
def Both.run (s : Both) (L : List Both) : List Act → Option (Both × List Both)
  | [] => some (s, L)
  | x :: l => if s.allowed x then do
      let (a, ev) ← s.event x
      let t ← tstep (pair.cfg a) (s.get a) ev
      Both.run (s.put a t) (s :: L) l
    else none

theorem Both.get_put (s : Both) (a : Bool) (t : Talk) : (s.put a t).get = fun x => if x = a then t else s.get x := by
  funext x
  cases a <;> cases x <;> rfl

theorem allowed_heard {s : Both} {x : Act} (h : s.allowed x = true) {a : Bool} {ev : TEv} (he : s.event x = some (a, ev)) :
    Overheard pair (fun _ k => k = Demo.key 1) s.get a ev := by
  cases x with
  | hello a' => cases he; exact ⟨trivial, fun _ => trivial, nofun⟩
  | flush a' => cases he; exact ⟨trivial, fun _ => trivial, nofun⟩
  | tell a' => cases he; exact ⟨trivial, fun _ => trivial, nofun⟩
  | route a' =>
    cases he
    refine ⟨?_, fun _ => trivial, nofun⟩
    show (redistribute (pair.cfg a).node _).key = Demo.key 1
    cases a <;> decide
  | wait a' t =>
    cases he
    have h : decide (0 < t) = true := h
    have h := of_decide_eq_true h
    refine ⟨⟨⟨(by decide : (0 : Int) ≤ 0), (by decide : (0 : Int) < 1000000)⟩, ?_⟩, fun _ => trivial, nofun⟩
    unfold micros
    simp only
    omega
  | relay a' j =>
    simp only [Both.event] at he
    simp only [Both.allowed] at h
    cases hp : ((s.get (!a')).d.link 10).out[j]? with
    | none => rw [hp] at h; cases h
    | some p =>
      rw [hp] at h he
      simp only [Option.any_some, Bool.and_eq_true, Option.map_some, Option.some.injEq] at h he
      obtain ⟨rfl, rfl⟩ := Prod.mk.inj he
      refine ⟨⟨of_decide_eq_true h.1, Nat.le_refl _, .inr ?_⟩, fun _ => trivial, fun n buf len dst hx => ?_⟩
      · intro st items hi
        have h2 := h.2
        unfold silent at h2
        rw [hi] at h2
        have hn := List.all_eq_true.1 h2
        exact ⟨fun k hk => absurd (hn _ hk) Bool.false_ne_true, fun _ _ _ _ hk => absurd (hn _ hk) Bool.false_ne_true⟩
      · cases hx
        exact .inr ⟨10, p, List.mem_of_getElem? hp, List.take_length.symm⟩

theorem run_history : ∀ (l : List Act) {s s' : Both} {L L' : List Both}, History pair (fun _ k => k = Demo.key 1) (s.get :: L.map Both.get) →
    s.run L l = some (s', L') → History pair (fun _ k => k = Demo.key 1) (s'.get :: L'.map Both.get) := by
  intro l
  induction l with
  | nil => intro s s' L L' h h1; cases h1; exact h
  | cons x l ih =>
    intro s s' L L' h h1
    unfold Both.run at h1
    split at h1
    · next hc =>
      simp only [Option.bind_eq_bind] at h1
      obtain ⟨⟨a, ev⟩, e1, h1⟩ := Option.bind_eq_some_iff.1 h1
      obtain ⟨t, e2, h1⟩ := Option.bind_eq_some_iff.1 h1
      refine ih ?_ h1
      rw [Both.get_put]
      exact h.step a ev t (allowed_heard hc e1) e2
    · cases h1

/-- Both say hello, and send what they have to say. -/
def round (k : Nat) : List Act := [.hello false, .flush false, .hello true, .flush true, .relay true k, .relay false k]

def acts : List Act := round 0 ++ round 1 ++ round 2

end DDemo

open DDemo in
/-- A network that meets the assumptions of `C73_both`, in which both routers have a finite cost. -/
example : ∃ T H x, History pair (fun _ k => k = Demo.key 1) (T :: H) ∧ (T false).d.nbr 1 = some x ∧ x.link.txcost = 96 ∧
    neighbourCost (T false).d.st.now (linkCfgOf (pair.cfg false) (T false).d.st 10) x.link = some 96 := by
  have h : (Both.run ⟨talk, talk⟩ [] acts).any (fun r => (r.1.f.d.nbr 1).any fun x => x.link.txcost == 96 &&
      neighbourCost r.1.f.d.st.now (linkCfgOf (pair.cfg false) r.1.f.d.st 10) x.link == some 96) = true := by decide +kernel
  rw [Option.any_eq_true] at h
  obtain ⟨⟨s, L⟩, h1, h2⟩ := h
  rw [Option.any_eq_true] at h2
  obtain ⟨x, h2, h3⟩ := h2
  simp only [Bool.and_eq_true, beq_iff_eq] at h3
  refine ⟨s.get, L.map Both.get, x, run_history acts ?_ h1, h2, h3.1, h3.2⟩
  refine .init _ fun a => ?_
  cases a <;> exact start

/-- The assumptions on the network. -/
theorem DDemo.pairOk : DNetOk DDemo.pair (fun _ k => k = Demo.key 1) ∧ (∀ a n, ((DDemo.pair.cfg a).addr n).length = 16) ∧ (∀ a i, ((DDemo.pair.cfg a).ifs i).cost ≤ INFINITY) ∧
    ∀ a b m i, (DDemo.pair.cfg b).addr m ∈ ((DDemo.pair.cfg a).ifs i).ll → DDemo.pair.peer b m = a := by
  refine ⟨⟨fun a => ⟨by cases a <;> decide, DDemo.cfgOk.nonces, DDemo.cfgOk.indices, DDemo.cfgOk.penalty, DDemo.cfgOk.ipv4, fun _ _ h => by cases h⟩,
    fun a n => (by show (!a) ≠ a; cases a <;> decide), fun a n => (by show linklocal (Demo.ll (if a then 1 else 2)) = true; cases a <;> decide), fun _ x y hx hy => (by rw [hx, hy]; unfold Proper Spec.KeyOk PrefixOk; decide +kernel)⟩,
    fun a n => by cases a <;> rfl, fun a i => (by decide : (96 : Nat) ≤ 65535), ?_⟩
  intro a b m i h
  have h : Demo.ll (if b then 1 else 2) ∈ [Demo.ll (if a then 2 else 1)] := h
  show (!b) = a
  revert h
  cases a <;> cases b <;> decide

end Babel
