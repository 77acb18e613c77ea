import Verif.Lemmas.DNet
import Verif.Props.Daemon
import Verif.Props.Net
/-
C65: networks of daemons that exchange packets.
-/
set_option linter.unusedVariables false
namespace Babel
open Spec

/-- There are no routing loops among daemons that exchange packets, however these are lost, duplicated, delayed, reordered
or forged, provided that no selected route that was retracted is revived by an unfeasible update.

Missing: without that proviso the property is false of the code (`C65_false`). -/
theorem C65_partial {Node : Type} [DecidableEq Node] {N : DNet Node} {X : Node → PKey → Prop} (hN : DNetOk N X) {o : Bytes} {k : PKey}
    {b : UInt16} {D : Node → Daemon} (h : DNetReachable N o k b X (NoneRevived o k) D) (a : Node) :
    ¬ Hops N.net o k (fun x => (D x).st) a a := by
  obtain ⟨_, _, h1⟩ := dnet_inv hN h
  exact C29_partial h1 a

/-- None of them makes another one read or write outside its buffers, or fail an assertion. -/
theorem C65_safe_partial {Node : Type} [DecidableEq Node] {N : DNet Node} {X : Node → PKey → Prop} (hN : DNetOk N X) {o : Bytes} {k : PKey}
    {b : UInt16} {D : Node → Daemon} (h : DNetReachable N o k b X (NoneRevived o k) D)
    (hw : ∀ x i q m, Out.update i o k q m ∈ (D x).st.out → (q - b).toNat < 32768) {a : Node} {ev : DEv}
    (ha : Arrives N o k X (NoneRevived o k) D a ev) : ∃ d, dstep (N.cfg a) (D a) ev = some d := dnet_step hN h hw ha

namespace DDemo

/-- Three daemons in a line, as in `Demo.net`.  The address of router `a` is fe80::(a+1) on all its interfaces. -/
def dnet : DNet (Fin 3) where
  cfg a := { e with
    node := Demo.net.cfg a
    ifs := fun _ => { dif with ll := [Demo.ll (UInt8.ofNat (a.val + 1))] }
    addr := fun n => Demo.ll (if a = 1 then (if n = 1 then 1 else 3) else 2) }
  peer := Demo.net.peer

/-- The states of the three daemons. -/
structure Three where
  d0 : Daemon
  d1 : Daemon
  d2 : Daemon

def Three.get (t : Three) (a : Fin 3) : Daemon := if a = 0 then t.d0 else if a = 1 then t.d1 else t.d2

def Three.put (t : Three) (a : Fin 3) (d : Daemon) : Three :=
  if a = 0 then { t with d0 := d } else if a = 1 then { t with d1 := d } else { t with d2 := d }

/-- An event at a router, or the arrival of the `j`th packet that its neighbour `n` has sent on interface `i`. -/
inductive Doing
  | ev (a : Fin 3) (ev : DEv)
  | relay (a : Fin 3) (n : NeighId) (i : IfId) (j : Nat)

def Three.event (t : Three) : Doing → Option (Fin 3 × DEv)
  | .ev a ev => some (a, ev)
  | .relay a n i j => ((t.get (dnet.peer a n)).link i).out[j]?.map fun p => (a, .packet n p.2 p.2.length [0xff])

def Three.step (t : Three) (x : Doing) : Option Three := do
  let (a, ev) ← t.event x
  let d ← dstep (dnet.cfg a) (t.get a) ev
  return t.put a d

def Three.run (t : Three) (l : List Doing) : Option Three := l.foldlM Three.step t

/-- Two packets are sent on interface `i`, one with hello `q`, and one with hello `q + 1`, an IHU for router `x` and updates. -/
def sends (a : Fin 3) (i : IfId) (q : Nat) (x : UInt8) : List Doing :=
  [.ev a (.say i 0 (.hello q 400 false false)), .ev a (.say i 0 .flush), .ev a (.say i 0 (.hello (q + 1) 400 false false)), .ev a (.say i 0 (.ihu 96 1200 (Demo.ll x) none)),
   .ev a (.node (.flushUpdates i)), .ev a (.say i 0 .flush)]

/-- Router 0 announces `Demo.key 1` to router 1, which announces it to router 2, which announces it back. -/
def spreads : List Doing := [.ev 0 (.node (.kernelRoute true ⟨Demo.key 1, 0, 30, 4⟩))] ++ sends 0 10 1 2 ++ [.relay 1 1 10 0, .relay 1 1 10 1] ++
  sends 1 20 1 3 ++ [.relay 2 1 20 0, .relay 2 1 20 1] ++ sends 2 10 1 2 ++ [.relay 1 2 10 0, .relay 1 2 10 1]

/-- Router 1 announces the route again.  Router 2 hears no hello for 24 seconds, and retracts the route.  Router 1
hears no hello from router 0 for 80 seconds and forgets it; the retracted route through router 2 becomes its selected route.  The
announcement reaches router 2, which announces the route to router 1. -/
def loops : List Doing := spreads ++ [.ev 1 (.node (.fullUpdate 20 false))] ++ sends 1 20 3 3 ++
  [.ev 2 (.node (.tick ⟨1024, 0⟩)), .ev 2 (.checkNbr 1), .ev 2 (.node (.flushUpdates 10)), .ev 2 (.say 10 0 .flush), .relay 1 2 10 2,
   .ev 1 (.node (.tick ⟨1080, 0⟩)), .ev 1 (.checkNbr 1), .relay 2 1 20 2, .relay 2 1 20 3] ++ sends 2 10 3 2 ++ [.relay 1 2 10 3, .relay 1 2 10 4]

/-- The interface of router 2 goes down and comes up, and router 1 announces the route again. -/
def returns : List Doing := spreads ++ [.ev 2 (.down 10), .ev 2 (.up 10 1500 4000 true), .ev 1 (.node (.fullUpdate 20 false))] ++
  sends 1 20 3 3 ++ [.relay 2 1 20 2, .relay 2 1 20 3]

def Three.start : Three := ⟨d, d, d⟩

/-- None of the selected routes has been retracted before any of the messages. -/
def calm (e : DCfg) (n : NeighId) : List Item → Daemon → Bool
  | [], _ => true
  | it :: l, d => (d.st.routes.all fun r => !(r.installed && decide (INFINITY ≤ r.refmetric))) &&
      match d.item e n it with
      | some d' => calm e n l d'
      | none => true

def inWindow (d : Daemon) : Bool := d.st.out.all fun o => match o with
  | .update _ _ _ q _ => decide (q.toNat < 32768)
  | _ => true

/-- The assumptions of `Arrives`, in a form that can be computed.  With `b`, no selected route is revived. -/
def Three.allowed (b : Bool) (t : Three) : Doing → Bool
  | .ev _ (.checkNbr _) => true
  | .ev a (.node (.tick x)) => decide (0 ≤ x.usec ∧ x.usec < 1000000 ∧ 0 < micros x) &&
      (t.get a).st.sources.all fun y => decide (x.sec - 200 ≤ y.time)
  | .ev a (.node (.kernelRoute _ kr)) => decide ((redistribute (dnet.cfg a).node kr).key = Demo.key 1)
  | .ev _ (.node (.flushUpdates _)) => true
  | .ev _ (.node (.fullUpdate _ _)) => true
  | .ev _ (.say _ _ (.hello q _ _ _)) => decide (q < 65536)
  | .ev _ (.say _ _ (.ihu r i x none)) => decide (1 ≤ r ∧ r < 65536 ∧ i < 65536 ∧ x.length = 16)
  | .ev _ (.say _ _ .flush) => true
  | .ev a (.down i) => let b := ((t.get a).link i).bufs 0; b.id.isNone && (b.nh.isNone && b.prefix_.isNone)
  | .ev _ (.up _ mtu _ _) => decide (mtu ≤ 65536)
  | .ev _ _ => false
  | .relay a n i j => match ((t.get (dnet.peer a n)).link i).out[j]? with
    | some p => decide (4 ≤ p.2.length) &&
        (!b || match (t.get a).accept (dnet.cfg a) n p.2 p.2.length [0xff] with
          | some (d1, eff) => calm (dnet.cfg a) n eff.items d1
          | none => true)
    | none => false

/-- The run, if all its events are allowed. -/
def Three.tell (b : Bool) (t : Three) : List Doing → Option Three
  | [] => some t
  | x :: l => if inWindow t.d0 && inWindow t.d1 && inWindow t.d2 && t.allowed b x then (t.step x).bind (·.tell b l) else none

theorem Three.get_put (t : Three) (a : Fin 3) (d : Daemon) : (t.put a d).get = fun x => if x = a then d else t.get x := by
  funext x
  have h1 : a = 0 ∨ a = 1 ∨ a = 2 := by omega
  have h2 : x = 0 ∨ x = 1 ∨ x = 2 := by omega
  rcases h1 with rfl | rfl | rfl <;> rcases h2 with rfl | rfl | rfl <;> rfl

theorem calm_spec {e : DCfg} {n : NeighId} {d2 : Daemon} {it : Item} {post : List Item} : ∀ (pre : List Item) (d : Daemon),
    calm e n (pre ++ it :: post) d = true → d.items e n pre = some d2 →
    ∀ r ∈ d2.st.routes, ¬ (r.installed = true ∧ INFINITY ≤ r.refmetric) := by
  intro pre
  induction pre with
  | nil =>
    intro d h hd r hr ⟨h1, h2⟩
    cases hd
    simp only [List.nil_append, calm, Bool.and_eq_true, List.all_eq_true] at h
    have := h.1 r hr
    rw [h1, decide_eq_true h2] at this
    cases this
  | cons x pre ih =>
    intro d h hd
    unfold Daemon.items at hd
    rw [List.foldlM_cons] at hd
    obtain ⟨d', e1, e2⟩ := Option.bind_eq_some_iff.1 hd
    simp only [List.cons_append, calm, Bool.and_eq_true, e1] at h
    exact ih d' h.2 e2

theorem inWindow_spec {d : Daemon} (h : inWindow d = true) {i : IfId} {o : Bytes} {k : PKey} {q : UInt16} {m : Nat}
    (ho : Out.update i o k q m ∈ d.st.out) : (q - 0).toNat < 32768 := by
  have := List.all_eq_true.1 h _ ho
  rw [UInt16.sub_zero]
  exact of_decide_eq_true this

/-- What may happen to a packet. -/
def Rule (b : Bool) (e : DCfg) (d : Daemon) (n : NeighId) (buf : Bytes) (len : Nat) (dst : Bytes) : Prop :=
  b = true → NoneRevived (Demo.rid 9) (Demo.key 1) e d n buf len dst

theorem allowed_arrives {b : Bool} {t : Three} {x : Doing} (h : t.allowed b x = true) {a : Fin 3} {ev : DEv} (he : t.event x = some (a, ev)) :
    Arrives dnet (Demo.rid 9) (Demo.key 1) (fun _ => (· = Demo.key 1)) (Rule b) t.get a ev := by
  cases x with
  | relay a' n i j =>
    simp only [Three.event] at he
    simp only [Three.allowed] at h
    cases hp : ((t.get (dnet.peer a' n)).link i).out[j]? with
    | none => rw [hp] at h; cases h
    | some p =>
      simp only [hp] at h he
      cases he
      rw [Bool.and_eq_true] at h
      refine ⟨of_decide_eq_true h.1, Nat.le_refl _, .inr ⟨⟨i, p, List.mem_of_getElem? hp, List.take_length.symm⟩, ?_⟩⟩
      intro hb d1 eff pre id k' q m iv nh post d2 h1 h2 h3 _ _ _ ⟨r, hr, _, _, _, h4, h5⟩
      rw [hb, h1] at h
      have h6 : calm (dnet.cfg a) n eff.items d1 = true := by simpa using h.2
      rw [h2] at h6
      exact absurd ⟨h4, h5⟩ (calm_spec pre d1 h6 h3 r hr)
  | ev a' ev' =>
    cases he
    cases ev with
    | packet => cases h
    | checkNbr => trivial
    | down i =>
      simp only [Three.allowed, Bool.and_eq_true, Option.isNone_iff_eq_none] at h
      exact ⟨rfl, fun _ => ⟨h.1, h.2.1, h.2.2⟩⟩
    | up i mtu fi full =>
      have h : decide (mtu ≤ 65536) = true := h
      have h := of_decide_eq_true h
      exact h
    | node ev =>
      cases ev with
      | tick y =>
        simp only [Three.allowed, Bool.and_eq_true, decide_eq_true_eq, List.all_eq_true] at h
        exact ⟨⟨h.1.1, h.1.2.1⟩, h.1.2.2, fun z hz _ => h.2 z hz⟩
      | kernelRoute bb kr =>
        have h : decide ((redistribute (dnet.cfg a).node kr).key = Demo.key 1) = true := h
        have h := of_decide_eq_true h
        exact h
      | checkXroutes => cases h
      | _ => first | trivial | cases h
    | say i j op =>
      cases op with
      | hello q iv u f =>
        have h : decide (q < 65536) = true := h
        have h := of_decide_eq_true h
        exact ⟨h, nofun⟩
      | ihu r iv y rtt =>
        cases rtt with
        | none =>
          obtain ⟨h1, h2, h3, h4⟩ := of_decide_eq_true h
          exact ⟨⟨h2, h3, h4, nofun⟩, fun r' _ _ _ e => by cases e; exact h1⟩
        | some => cases h
      | flush => exact ⟨trivial, nofun⟩
      | _ => cases h

theorem tell_reachable {b : Bool} : ∀ (l : List Doing) {t t' : Three},
    DNetReachable dnet (Demo.rid 9) (Demo.key 1) 0 (fun _ => (· = Demo.key 1)) (Rule b) t.get → t.tell b l = some t' →
    DNetReachable dnet (Demo.rid 9) (Demo.key 1) 0 (fun _ => (· = Demo.key 1)) (Rule b) t'.get := by
  intro l
  induction l with
  | nil => intro t t' h h1; cases h1; exact h
  | cons x l ih =>
    intro t t' h h1
    unfold Three.tell at h1
    split at h1
    · next hc =>
      simp only [Bool.and_eq_true] at hc
      obtain ⟨t1, e1, e2⟩ := Option.bind_eq_some_iff.1 h1
      refine ih ?_ e2
      unfold Three.step at e1
      simp only [Option.bind_eq_bind] at e1
      obtain ⟨⟨a, ev⟩, e3, e1⟩ := Option.bind_eq_some_iff.1 e1
      obtain ⟨d, e4, e1⟩ := Option.bind_eq_some_iff.1 e1
      cases e1
      rw [Three.get_put]
      refine h.step a ev d (fun y i q m ho => ?_) (allowed_arrives hc.2 e3) e4
      have hy : y = 0 ∨ y = 1 ∨ y = 2 := by omega
      rcases hy with rfl | rfl | rfl
      · exact inWindow_spec hc.1.1.1 ho
      · exact inWindow_spec hc.1.1.2 ho
      · exact inWindow_spec hc.1.2 ho
    · cases h1

theorem start_reachable {b : Bool} : DNetReachable dnet (Demo.rid 9) (Demo.key 1) 0 (fun _ => (· = Demo.key 1)) (Rule b) Three.start.get := by
  have h : ∀ a, Three.start.get a = d := by
    intro a
    unfold Three.get
    split
    · rfl
    · split <;> rfl
  refine .init _ (fun a => ?_) (fun a n => ?_) (fun a i => ?_)
  · rw [h]; exact start
  · rw [h]; exact (by decide : 1 ≤ 65535)
  · rw [h]; exact (by decide : KRes.ok ≠ .fail)

theorem dnetOk : DNetOk dnet (fun _ => (· = Demo.key 1)) where
  cfg a := {
    myid := by
      have h1 : a = 0 ∨ a = 1 ∨ a = 2 := by omega
      rcases h1 with rfl | rfl | rfl <;> decide
    nonces := cfgOk.nonces
    indices := cfgOk.indices
    penalty := cfgOk.penalty
    ipv4 := cfgOk.ipv4
    signs := fun _ _ h => by cases h }
  peer a n := by
    unfold dnet Demo.net
    simp only
    split
    · next h => subst h; split <;> decide
    · next h => exact fun h' => h h'.symm
  addr a n := by
    unfold dnet
    simp only
    split
    · split <;> decide
    · decide
  mix _ x y hx hy := by
    subst hx
    subst hy
    unfold Proper Spec.KeyOk PrefixOk
    decide +kernel

end DDemo

open DDemo in
/-- A network that meets the assumptions of `C65_partial`, in which a packet takes two hops. -/
example : ∃ D, DNetReachable dnet (Demo.rid 9) (Demo.key 1) 0 (fun _ => (· = Demo.key 1)) (NoneRevived (Demo.rid 9) (Demo.key 1)) D ∧
    Hops dnet.net (Demo.rid 9) (Demo.key 1) (fun x => (D x).st) 2 0 := by
  have h : (Three.start.tell true spreads).any (fun t => Demo.forwards (fun x => (t.get x).st) 2 1 && Demo.forwards (fun x => (t.get x).st) 1 0) = true := by
    decide +kernel
  rw [Option.any_eq_true] at h
  obtain ⟨t, h1, h2⟩ := h
  rw [Bool.and_eq_true] at h2
  have := tell_reachable spreads start_reachable h1
  refine ⟨t.get, ?_, .more (Demo.forwards_of h2.1) (.one (Demo.forwards_of h2.2))⟩
  have he : Rule true = NoneRevived (Demo.rid 9) (Demo.key 1) := by
    funext e d n buf len dst
    exact propext ⟨fun h => h rfl, fun h _ => h⟩
  rw [← he]
  exact this

open DDemo in
/-- Router 2 loses the route when its interface goes down, and has it again later. -/
example : (Three.start.tell true (returns.take (spreads.length + 2))).any (fun t => !Demo.forwards (fun x => (t.get x).st) 2 1) = true ∧
    ∃ D, DNetReachable dnet (Demo.rid 9) (Demo.key 1) 0 (fun _ => (· = Demo.key 1)) (NoneRevived (Demo.rid 9) (Demo.key 1)) D ∧
    Hops dnet.net (Demo.rid 9) (Demo.key 1) (fun x => (D x).st) 2 0 := by
  refine ⟨by decide +kernel, ?_⟩
  have h : (Three.start.tell true returns).any (fun t => Demo.forwards (fun x => (t.get x).st) 2 1 && Demo.forwards (fun x => (t.get x).st) 1 0) = true := by
    decide +kernel
  rw [Option.any_eq_true] at h
  obtain ⟨t, h1, h2⟩ := h
  rw [Bool.and_eq_true] at h2
  have := tell_reachable returns start_reachable h1
  refine ⟨t.get, ?_, .more (Demo.forwards_of h2.1) (.one (Demo.forwards_of h2.2))⟩
  have he : Rule true = NoneRevived (Demo.rid 9) (Demo.key 1) := by
    funext e d n buf len dst
    exact propext ⟨fun h => h rfl, fun h _ => h⟩
  rw [← he]
  exact this

open DDemo in
/-- The next event, if the neighbour is checked after that. -/
example : ∃ t d, Three.start.tell true spreads = some t ∧ dstep (dnet.cfg 1) (t.get 1) (.checkNbr 1) = some d := by
  have h : (Three.start.tell true spreads).any (fun t => inWindow t.d0 && inWindow t.d1 && inWindow t.d2) = true := by decide +kernel
  rw [Option.any_eq_true] at h
  obtain ⟨t, h1, h2⟩ := h
  simp only [Bool.and_eq_true] at h2
  have := tell_reachable spreads start_reachable h1
  have he : Rule true = NoneRevived (Demo.rid 9) (Demo.key 1) := by
    funext e d n buf len dst
    exact propext ⟨fun h => h rfl, fun h _ => h⟩
  rw [he] at this
  obtain ⟨d, hd⟩ := C65_safe_partial dnetOk this (fun y i q m ho => by
    have hy : y = 0 ∨ y = 1 ∨ y = 2 := by omega
    rcases hy with rfl | rfl | rfl
    · exact inWindow_spec h2.1.1 ho
    · exact inWindow_spec h2.1.2 ho
    · exact inWindow_spec h2.2 ho) (a := 1) (ev := .checkNbr 1) trivial
  exact ⟨t, d, h1, hd⟩

open DDemo in
/-- A routing loop, with actual packets. -/
theorem C65_false : ∃ D, DNetReachable dnet (Demo.rid 9) (Demo.key 1) 0 (fun _ => (· = Demo.key 1)) (fun _ _ _ _ _ _ => True) D ∧
    DNetOk dnet (fun _ => (· = Demo.key 1)) ∧ Hops dnet.net (Demo.rid 9) (Demo.key 1) (fun x => (D x).st) 1 1 := by
  have h : (Three.start.tell false loops).any (fun t => Demo.forwards (fun x => (t.get x).st) 1 2 && Demo.forwards (fun x => (t.get x).st) 2 1) = true := by
    decide +kernel
  rw [Option.any_eq_true] at h
  obtain ⟨t, h1, h2⟩ := h
  rw [Bool.and_eq_true] at h2
  have := tell_reachable loops start_reachable h1
  refine ⟨t.get, ?_, dnetOk, .more (Demo.forwards_of h2.1) (.one (Demo.forwards_of h2.2))⟩
  have he : Rule false = fun _ _ _ _ _ _ => True := by
    funext e d n buf len dst
    exact propext ⟨fun _ => trivial, fun _ h => by cases h⟩
  rw [← he]
  exact this

end Babel
