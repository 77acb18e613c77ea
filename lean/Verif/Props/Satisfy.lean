import Verif.Props.Requests
import Verif.Lemmas.Told
import Verif.Lemmas.Net
/-
C38: announcements and the requests they answer.
-/
set_option linter.unusedSimpArgs false
set_option linter.unusedVariables false
namespace Babel
open Spec

variable {c : Cfg}

/-- The routes and the pending request for `k` are unchanged. -/
structure KeepsReq (k : PKey) (s s' : St) : Prop where
  routes : s'.routes = s.routes
  req : pending s' .request k = pending s .request k

theorem KeepsReq.refl (k : PKey) (s : St) : KeepsReq k s s := ⟨rfl, rfl⟩
theorem KeepsReq.trans {k : PKey} {a b d : St} (h : KeepsReq k a b) (g : KeepsReq k b d) : KeepsReq k a d :=
  ⟨g.routes.trans h.routes, g.req.trans h.req⟩

/-- No reachable route to `k` is selected. -/
def NoReach (k : PKey) (s : St) : Prop := ∀ r, findInstalled s k = some r → INFINITY ≤ routeMetric r

theorem NoReach.keep {k : PKey} {s s' : St} (h : NoReach k s) (g : KeepsReq k s s') : NoReach k s' := by
  unfold NoReach findInstalled
  rw [g.routes]; exact h

theorem keeps_really (s : St) (i : IfId) (id : Bytes) (k' : PKey) (q : UInt16) (m : Nat) (k : PKey) :
    KeepsReq k s (reallySend c s i id k' q m) := by
  rcases reallySend_eq c s i id k' q m with h | ⟨m', h, _⟩ <;> rw [h] <;> exact ⟨rfl, rfl⟩

theorem KeepsReq.modIf {k : PKey} {s t : St} (h : KeepsReq k s t) (i : IfId) (f : Iface → Iface) : KeepsReq k s (modIf t i f) :=
  ⟨h.routes, h.req⟩

theorem keeps_satisfy {k k' : PKey} (hne : k ≠ k') (s : St) (q : UInt16) (id : Bytes) (i : Option IfId) :
    KeepsReq k s (satisfyRequest s k' q id i) := by
  refine ⟨?_, ?_⟩
  · unfold satisfyRequest recomputeResendTime
    split
    · rfl
    · split
      · rfl
      · split <;> rfl
  · rw [C38_satisfy]
    cases pending s .request k with
    | none => rfl
    | some r => simp [hne]

theorem keeps_flushRt {k : PKey} {s : St} (hn : NoReach k s) {k' : PKey} {r : Route} (hr : findInstalled s k' = some r) (i : IfId) :
    KeepsReq k s (flushRt c s i r).1 := by
  unfold flushRt
  have h1 : KeepsReq k s (if routeMetric r < INFINITY then satisfyRequest s r.key r.seqno r.id (some i) else s) := by
    split
    · next h =>
      obtain ⟨-, hk, -⟩ := findInstalled_mem hr
      refine keeps_satisfy ?_ ..
      rintro rfl
      rw [hk] at hn
      have := hn r hr
      omega
    · exact .refl ..
  simp only
  split
  · exact h1
  · exact h1.trans ((keeps_really (c := c) _ i r.id r.key r.seqno (routeMetric r) k).trans ⟨rfl, rfl⟩)

theorem keeps_flushOne {k : PKey} {s : St} (hn : NoReach k s) (i : IfId) (k' : PKey) : KeepsReq k s (flushOne c s i k').1 := by
  unfold flushOne
  split
  · exact keeps_really ..
  · split
    · next r hr => exact keeps_flushRt hn hr i
    · exact keeps_really ..

theorem keeps_flushLoop {k : PKey} (i : IfId) (l : List PKey) : ∀ {s : St} (last : Option PKey), NoReach k s →
    KeepsReq k s (flushLoop c i l last s) := by
  induction l with
  | nil => intro s last _; exact .refl ..
  | cons a l ih =>
    intro s last hn
    unfold flushLoop
    split
    · exact ih _ hn
    · have h1 := keeps_flushOne (c := c) hn i a
      exact h1.trans (ih _ (hn.keep h1))

theorem keeps_flush {k : PKey} {s : St} (hn : NoReach k s) (i : IfId) : KeepsReq k s (flushUpdates c s i) := by
  unfold flushUpdates
  split
  · exact .refl ..
  · simp only
    refine KeepsReq.modIf ?_ _ _
    split
    · exact .refl ..
    · have h1 := (KeepsReq.refl k s).modIf i (fun x => { x with queue := [], queueCap := 0 })
      refine h1.trans ?_
      split
      · exact .refl ..
      · exact keeps_flushLoop i _ none (hn.keep h1)

theorem keeps_sendIf {k : PKey} {s : St} (hn : NoReach k s) (i : IfId) (u : Bool) (k' : PKey) :
    KeepsReq k s (sendUpdateIf c s i u k') := by
  unfold sendUpdateIf
  split
  · exact .refl ..
  · have h1 : KeepsReq k s (bufferUpdate c s i k') := by
      unfold bufferUpdate
      split
      · exact .refl ..
      · simp only
        refine KeepsReq.modIf ?_ _ _
        split
        · exact keeps_flush hn i
        · exact .refl ..
    refine h1.trans ?_
    obtain ⟨t, ht⟩ : ∃ t, t = bufferUpdate c s i k' := ⟨_, rfl⟩
    rw [← ht]
    unfold scheduleUpdateFlush
    split
    · exact .refl ..
    · refine iteInduction (motive := KeepsReq k t) (fun _ => ⟨rfl, rfl⟩) (fun _ => ⟨rfl, rfl⟩)

/-- C38: announcing that a destination is unreachable (no route to it is selected, or a retracted one) does not cancel the
pending request for it. -/
theorem C38_retraction {c : Cfg} {s : St} (h : Reachable c s) (u : Bool) (k : PKey)
    (hn : ∀ x ∈ s.routes, x.key = k → x.installed = true → INFINITY ≤ routeMetric x) :
    pending (sendUpdate c s u k) .request k = pending s .request k ∧
    ∀ i, pending (flushUpdates c s i) .request k = pending s .request k := by
  have hn : NoReach k s := fun r hr => by
    obtain ⟨a, b, d⟩ := findInstalled_mem hr
    exact hn r a b d
  refine ⟨?_, fun i => (keeps_flush hn i).req⟩
  have key : ∀ (l : List IfId) (t : St), NoReach k t → KeepsReq k t (l.foldl (fun s i => sendUpdateIf c s i u k) t) := by
    intro l
    induction l with
    | nil => intro t _; exact .refl ..
    | cons a l ih =>
      intro t ht
      have h1 := keeps_sendIf (c := c) ht a u k
      exact h1.trans (ih _ (ht.keep h1))
  have hk := key (allIfs s) s hn
  unfold sendUpdate
  simp only
  have hn' := hn.keep hk
  split
  · exact hk.req
  · next r hr =>
    rw [if_neg (by have := hn' r hr; omega)]
    exact hk.req

/-- C38: announcing a reachable selected route on all interfaces cancels the pending request for the destination, unless it
asks the same originator for a sequence number newer than the one remembered for it. -/
theorem C38_announcement {c : Cfg} {s : St} (h : Reachable c s) (u : Bool) {x : Route} (hx : x ∈ s.routes)
    (hi : x.installed = true) (hm : routeMetric x < INFINITY) :
    ∃ src, (sendUpdate c s u x.key).sources.find? (·.skey == x.skey) = some src ∧
      ∀ r, pending (sendUpdate c s u x.key) .request x.key = some r → Cancelled r ∨ (r.id = x.id ∧ NewerEq r.seqno src.seqno) := by
  have hl := h.inv.lst
  obtain ⟨t, ht⟩ : ∃ t, t = (allIfs s).foldl (fun s i => sendUpdateIf c s i u x.key) s := ⟨_, rfl⟩
  have hq : QMs c s t := by
    rw [ht]
    exact QMs.foldl (fun s i => sendUpdateIf c s i u x.key) (fun s i => qms_sendUpdateIf c s i u x.key) (allIfs s) s
  have hy := hq.same.findInstalled x.key
  rw [(findInstalled_iff hl).2 ⟨hx, rfl, hi⟩] at hy
  obtain ⟨y, hy, e⟩ := map_core_some hy
  have hsk : y.skey = x.skey := by unfold Route.skey; rw [core_eq e]
  have hym : routeMetric y = routeMetric x := core_metric e
  have hyid : y.id = x.id := by rw [core_eq e]
  have hs : (findSource t x.skey).isSome := by
    rw [hq.same.findSource]
    exact h.inv.hasSource hx
  obtain ⟨src, hsrc⟩ := Option.isSome_iff_exists.1 hs
  have hval : sendUpdate c s u x.key = satisfyRequest t x.key src.seqno x.id none := by
    unfold sendUpdate
    simp only
    rw [← ht, hy]
    simp only
    rw [if_pos (by rw [hym]; exact hm), hsk, hsrc, hyid]
  rw [hval]
  refine ⟨src, ?_, ?_⟩
  · have : (satisfyRequest t x.key src.seqno x.id none).sources = t.sources := by
      unfold satisfyRequest recomputeResendTime
      split
      · rfl
      · split
        · rfl
        · split <;> rfl
    rw [this]; exact hsrc
  · intro r hr
    rw [C38_satisfy] at hr
    cases hp : pending t .request x.key with
    | none => rw [hp] at hr; cases hr
    | some r0 =>
      rw [hp] at hr
      simp only [Option.map_some, Option.some.injEq, true_and, true_or] at hr
      by_cases hc : r0.id = x.id → ¬ NewerEq r0.seqno src.seqno
      · rw [if_pos hc] at hr
        left
        rw [← hr]
        have hkd : r0.kind = .request := by
          have := List.find?_some (show t.resends.find? _ = some r0 from hp)
          simp at this; exact this.1
        exact ⟨hkd, rfl⟩
      · rw [if_neg hc] at hr
        right
        rw [← hr]
        simpa using hc

namespace Demo38
open Demo

/-- A request for the destination is pending.  Neighbour 2's route becomes feasible, is selected and announced. -/
example : (pending (run cfg start lost) .request (key 1)).isSome = true ∧
    (run cfg start lost).routes.map (·.installed) = [false] ∧
    ((pending (sendUpdate cfg (run cfg start lost) true (key 1)) .request (key 1)).map (·.max)) = some 3 ∧
    (let s := run cfg start (lost ++ [.update (some (rid 8)) (key 1) 1 300 400 3 (some (ll 3))])
     s.routes.map (fun r => (r.neigh, r.installed)) = [(3, true), (2, false)] ∧
     (pending s .request (key 1)).map (·.max) = some 0) := by decide +kernel

end Demo38

end Babel
