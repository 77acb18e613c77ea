import Verif.Lemmas.Farewell
/-
C84: what the neighbours are told when the daemon exits.
-/
set_option linter.unusedVariables false
set_option linter.unusedSimpArgs false
namespace Babel
open Spec

namespace DemoLast
def x : LastIf := ⟨DemoBuf.c, ⟨1001, 0⟩, false, [1, 2], [(DemoBuf.id1, DemoBuf.p6, 8, 150)], 6, 19⟩
def calm : List Act := [DemoBuf.at_ 0 (.update DemoBuf.id1 DemoBuf.p6 3 100)]
theorem ok : LastOk true true x := by
  refine ⟨rfl, rfl, ?_, ?_, by decide, by decide, ?_⟩
  · exact (DemoBuf.steady.2 (DemoBuf.at_ 0 .flush) (by simp [DemoBuf.acts])).2.2.1
  · exact (DemoBuf.steady.2 (DemoBuf.at_ 0 .flush) (by simp [DemoBuf.acts])).2.2.2.1
  · have := (DemoBuf.steady.2 (DemoBuf.at_ 0 (.update DemoBuf.id1 DemoBuf.p6 3 100)) (by simp [DemoBuf.acts])).2.2.2.2
    intro u hu
    rw [show x.queue = [(DemoBuf.id1, DemoBuf.p6, 8, 150)] from rfl, List.mem_singleton] at hu
    subst hu
    exact ⟨this.1, this.2.1, by decide, by decide⟩
theorem calmSteady : Steady true true DemoBuf.o calm :=
  ⟨DemoBuf.steady.1, fun y hy => DemoBuf.steady.2 y (by
    rw [show calm = [DemoBuf.at_ 0 (.update DemoBuf.id1 DemoBuf.p6 3 100)] from rfl, List.mem_singleton] at hy
    subst hy
    simp [DemoBuf.acts])⟩
end DemoLast

/-- On an interface that is up and where updates are multicast, nothing that was waiting in the buffer of the interface is lost.  It is
followed by the retraction of all routes, by some of the updates in the queue, and by a hello that announces the next one within 0.1s.
There are no such updates unless a hello was waiting in the buffer. -/
theorem C84_retraction {a tf : Bool} {o : Orc} {acts : List Act} {l l0 : Link} {x : LastIf} (hs : Steady a tf o acts) (hf : FreshLink l)
    (hr : l.run o acts = some l0) (hx : LastOk a tf x) (hup : x.c.up = true) (hm : x.unicast = false)
    (e : PEnv) (he : linklocal e.sender) :
    ∃ l' late, farewell o x l0 = some l' ∧ (l'.bufs 0).bytes = [] ∧
      (sentOn l' 0).flatMap (heard e) = toldOn o e 0 l acts ++ [.retractAll] ++ late ++ [.hello false x.helloSeqno 10 none] ∧
      (late = [] ∨ late = queued e x) ∧
      ((unsent e l0 0).any isHello = false → late = []) ∧
      ((unsent e l0 0).any isHello = true → (l0.bufs 0).bytes.length + 74 ≤ (l0.bufs 0).size → late = queued e x) := by
  obtain ⟨l1, l', h1, h2, h3, h4, h5, h6⟩ := farewell_run hs hf hr hx hup
  obtain ⟨c1, c2⟩ := C11_flushed h6 hf rfl h5 e he
  have hret : x.retract = [⟨x.c, x.now, 0, .retraction x.myseqno⟩] := by
    unfold LastIf.retract LastIf.targets; rw [hm]; rfl
  have hup' : x.updates = (x.queue.map fun u => (⟨x.c, x.now, 0, .update u.1 u.2.1 u.2.2.1 u.2.2.2⟩ : Act)) ++ [⟨x.c, x.now, 0, .flush⟩] := by
    unfold LastIf.updates LastIf.targets; rw [hm]
    simp only [Bool.false_eq_true, if_false, List.map_cons, List.map_nil]
    congr 1
    induction x.queue with
    | nil => rfl
    | cons u us ih => rw [List.flatMap_cons, List.map_cons, ih]; rfl
  obtain ⟨tss, g⟩ := run_good hs hf hr
  have hh : (unsent e l0 0).any isHello = (l0.bufs 0).hello.isSome := by
    rw [g.unsent e he 0]; exact any_hello (g.good 0) e
  have hstep : ∃ t, bufferRetraction o x.c x.now x.myseqno (l0.tx 0) = some t ∧ (l1.bufs 0).hello = t.buf.hello := by
    rw [hret] at h1
    unfold Link.run Link.step at h1
    cases ht : Snd.run o x.c x.now (.retraction x.myseqno) (l0.tx 0) with
    | none => rw [ht] at h1; cases h1
    | some t =>
      rw [ht] at h1
      cases h1
      exact ⟨t, ht, by simp⟩
  obtain ⟨t, ht, hl⟩ := hstep
  obtain ⟨r1, r2⟩ := retraction_run ht
  refine ⟨l', if (l1.bufs 0).hello.isSome then queued e x else [], h2, c1, ?_, ?_, ?_, ?_⟩
  · rw [c2, List.append_assoc, List.append_assoc, toldOn_append _ _ _ _ _ _ _ hr]
    rw [List.append_assoc, List.append_assoc]
    congr 1
    rw [toldOn_firm o e 0 _ l0 l' (by rw [Link.run_append_eq, h1]; exact h3)]
    · rw [hret, List.flatMap_append, List.flatMap_append]
      congr 1
      unfold LastIf.rest
      cases hb : (l1.bufs 0).hello.isSome with
      | false => simp [told]
      | true =>
        simp only [if_true, hup', List.flatMap_append, queued, List.flatMap_map]
        simp [told]
    · intro y hy
      rw [hret] at hy
      unfold LastIf.rest at hy
      rw [hup'] at hy
      simp only [List.mem_append, List.mem_singleton] at hy
      rcases hy with rfl | (hy | rfl) | rfl
      · trivial
      · split at hy
        · simp only [List.mem_append, List.mem_map, List.mem_singleton] at hy
          rcases hy with ⟨u, _, rfl⟩ | rfl <;> trivial
        · simp at hy
      · exact rfl
      · trivial
  · split
    · exact .inr rfl
    · exact .inl rfl
  · intro hn
    rw [hh] at hn
    rw [hl, r1 (show (l0.bufs 0).hello = none by simpa using hn)]
    rfl
  · intro hn hroom
    rw [hh] at hn
    rw [hl, (r2 hroom).2]
    exact if_pos hn

open DemoBuf DemoLast in
example : ∃ l0 l', l.run o calm = some l0 ∧ farewell o x l0 = some l' ∧
    (sentOn l' 0).flatMap (heard e) = [.update (some id1) p6 3 100 1600 (some e.sender), .retractAll, .hello false 19 10 none] := by
  obtain ⟨l0, h0, _⟩ := C12_safe calmSteady fresh
  obtain ⟨l', late, h1, _, h2, _, h3, _⟩ := C84_retraction calmSteady fresh h0 ok rfl rfl e (by decide)
  refine ⟨l0, l', h0, h1, ?_⟩
  have hl : (unsent e l0 0).any isHello = false := by
    have : ((l.run o calm).map fun l0 => (unsent e l0 0).any isHello) = some false := by decide +kernel
    rw [h0] at this
    exact Option.some.inj this
  rw [h2, h3 hl]
  decide +kernel

/-- Nothing is sent on an interface that is down. -/
theorem C84_down {o : Orc} {x : LastIf} {l : Link} (h : x.c.up = false) : farewell o x l = some l := by
  unfold farewell; rw [h]; rfl

example : farewell DemoBuf.o { DemoLast.x with c := { DemoBuf.c with up := false } } DemoBuf.l = some DemoBuf.l := C84_down rfl

/-- The retraction is not always the last thing said about routes: if a hello was waiting, the updates in the queue are sent after it, so
that a neighbour that has just dropped the route is told that it is available again. -/
theorem C84_after_false : ∃ (o : Orc) (x : LastIf) (l l0 l' : Link) (acts : List Act) (e : PEnv),
    FreshLink l ∧ Steady true true o acts ∧ LastOk true true x ∧ x.c.up = true ∧ x.unicast = false ∧
    l.run o acts = some l0 ∧ farewell o x l0 = some l' ∧
    ((sentOn l' 0).flatMap (heard e)).filter isUpdate =
      announcements e 0 acts ++ [.retractAll, .update (some DemoBuf.id1) DemoBuf.p6 8 150 1600 (some e.sender)] := by
  obtain ⟨l0, h0, _⟩ := C12_safe DemoBuf.steady DemoBuf.fresh
  obtain ⟨l', late, h1, _, h2, _, _, h3⟩ := C84_retraction DemoBuf.steady DemoBuf.fresh h0 DemoLast.ok rfl rfl DemoBuf.e (by decide)
  refine ⟨DemoBuf.o, DemoLast.x, DemoBuf.l, l0, l', DemoBuf.acts, DemoBuf.e, DemoBuf.fresh, DemoBuf.steady, DemoLast.ok, rfl, rfl, h0, h1, ?_⟩
  have hl : (unsent DemoBuf.e l0 0).any isHello = true ∧ (l0.bufs 0).bytes.length + 74 ≤ (l0.bufs 0).size := by
    have : ((DemoBuf.l.run DemoBuf.o DemoBuf.acts).map fun l0 => decide ((unsent DemoBuf.e l0 0).any isHello = true ∧
      (l0.bufs 0).bytes.length + 74 ≤ (l0.bufs 0).size)) = some true := by decide +kernel
    rw [h0] at this
    exact of_decide_eq_true (Option.some.inj this)
  rw [h2, h3 hl.1 hl.2]
  decide +kernel

/-- Where updates are sent to each neighbour separately, the retraction is left in the buffers of the neighbours: if there is room for it
there and no hello is waiting, no neighbour is sent it. -/
theorem C84_unicast_false {a tf : Bool} {o : Orc} {acts : List Act} {l l0 : Link} {x : LastIf} (hs : Steady a tf o acts) (hf : FreshLink l)
    (hr : l.run o acts = some l0) (hx : LastOk a tf x) (hup : x.c.up = true) (hm : x.unicast = true) (h0 : 0 ∉ x.nbrs) (hd : x.nbrs.Nodup)
    (e : PEnv) (he : linklocal e.sender) (hh : (unsent e l0 0).any isHello = false)
    (j : Nat) (hj : j ∈ x.nbrs) (hroom : (l0.bufs j).bytes.length + 74 ≤ (l0.bufs j).size) :
    ∃ l', farewell o x l0 = some l' ∧ sentOn l' j = sentOn l0 j ∧ unsent e l' j = unsent e l0 j ++ [.retractAll] ∧
      (sentOn l' 0).flatMap (heard e) = toldOn o e 0 l acts ++ [.hello false x.helloSeqno 10 none] := by
  obtain ⟨l1, l', h1, h2, h3, h4, h5, h6⟩ := farewell_run hs hf hr hx hup
  have hret : x.retract = x.nbrs.map fun i => ⟨x.c, x.now, i, .retraction x.myseqno⟩ := by
    unfold LastIf.retract LastIf.targets; rw [hm]; rfl
  obtain ⟨tss, g⟩ := run_good hs hf hr
  have hh0 : (l0.bufs 0).hello = none := by
    have : (unsent e l0 0).any isHello = (l0.bufs 0).hello.isSome := by
      rw [g.unsent e he 0]; exact any_hello (g.good 0) e
    rw [this] at hh
    simpa using hh
  have hk : (l1.bufs 0).hello.isSome = false := by
    rw [(linkRun_other (j := 0) _ _ _ h1 (by
      rw [hret]; intro y hy; rw [List.mem_map] at hy; obtain ⟨i, hi, rfl⟩ := hy; exact fun h => h0 (by rw [← h]; exact hi))).1, hh0]
    rfl
  rw [hk] at h3 h5 h6
  have hj0 : j ≠ 0 := fun h => h0 (h ▸ hj)
  have hlast : l'.bufs j = l1.bufs j ∧ sentOn l' j = sentOn l1 j := by
    refine linkRun_other _ _ _ h3 ?_
    intro y hy
    simp [LastIf.rest] at hy
    rcases hy with rfl | rfl <;> exact Ne.symm hj0
  have hsent : sentOn l1 j = sentOn l0 j := by
    obtain ⟨as, bs, hab⟩ := List.append_of_mem hj
    rw [hab, List.nodup_append] at hd
    obtain ⟨hd1, hd2, hd3⟩ := hd
    rw [List.nodup_cons] at hd2
    rw [hret, hab, List.map_append, List.map_cons] at h1
    obtain ⟨m1, q1, q2⟩ := run_append o _ _ _ _ h1
    obtain ⟨p1, p2⟩ := linkRun_other (j := j) _ _ _ q1 (by
      intro y hy; rw [List.mem_map] at hy; obtain ⟨i, hi, rfl⟩ := hy
      exact fun h => hd3 i hi j (List.mem_cons_self ..) h)
    rw [Link.run] at q2
    cases hq : m1.step o x.c x.now j (.retraction x.myseqno) with
    | none => simp only [hq] at q2; cases q2
    | some m2 =>
      simp only [hq] at q2
      obtain ⟨p3, p4⟩ := linkRun_other (j := j) _ m2 _ q2 (by
        intro y hy; rw [List.mem_map] at hy; obtain ⟨i, hi, rfl⟩ := hy
        exact fun h => hd2.1 (by rw [← h]; exact hi))
      rw [p4, ← p2]
      unfold Link.step at hq
      cases ht : Snd.run o x.c x.now (.retraction x.myseqno) (m1.tx j) with
      | none => rw [ht] at hq; cases hq
      | some t =>
        rw [ht] at hq
        cases hq
        have hto : t.out = [] := ((retraction_run ht).2 (by show (m1.bufs j).bytes.length + 74 ≤ (m1.bufs j).size; rw [p1]; exact hroom)).1
        unfold sentOn
        simp [hto]
  have hfirm : ∀ y ∈ x.retract ++ (x.rest false ++ [⟨x.c, x.now, 0, .flush⟩]), Firm y.op := by
    intro y hy
    rw [hret] at hy
    simp [LastIf.rest] at hy
    rcases hy with ⟨i, _, rfl⟩ | rfl | rfl <;> first | trivial | rfl
  have hw : l0.run o (x.retract ++ (x.rest false ++ [⟨x.c, x.now, 0, .flush⟩])) = some l' := by
    rw [Link.run_append_eq, h1]; exact h3
  refine ⟨l', h2, hlast.2.trans hsent, ?_, ?_⟩
  · have m0 := C11_messages hs hf hr e he j
    have m1 := C11_messages h6 hf h5 e he j
    rw [List.append_assoc, List.append_assoc, toldOn_append _ _ _ _ _ _ _ hr, ← m0, hlast.2.trans hsent, List.append_assoc] at m1
    have m2 := List.append_cancel_left m1
    rw [m2]
    congr 1
    rw [toldOn_firm o e j _ l0 l' hw hfirm, List.flatMap_append, hret]
    have z1 : (x.rest false ++ [(⟨x.c, x.now, 0, .flush⟩ : Act)]).flatMap (fun y : Act => if y.i = j then told e y.c false y.op else []) = [] := by
      simp [LastIf.rest, Ne.symm hj0]
    rw [z1, List.append_nil]
    exact once_told e x j x.nbrs hd hj
  · rw [(C11_flushed h6 hf rfl h5 e he).2, List.append_assoc, List.append_assoc, toldOn_append _ _ _ _ _ _ _ hr]
    congr 1
    rw [toldOn_firm o e 0 _ l0 l' hw hfirm, List.flatMap_append, hret]
    have z1 : (x.nbrs.map fun i => (⟨x.c, x.now, i, .retraction x.myseqno⟩ : Act)).flatMap
        (fun y => if y.i = 0 then told e y.c false y.op else []) = [] := by
      rw [List.flatMap_eq_nil_iff]
      intro y hy
      rw [List.mem_map] at hy
      obtain ⟨i, hi, rfl⟩ := hy
      exact if_neg fun h => h0 (by rw [← show i = 0 from h]; exact hi)
    show List.flatMap _ _ ++ _ = _
    rw [z1]
    simp [LastIf.rest, told]

open DemoBuf DemoLast in
example : ∃ l0 l', l.run o calm = some l0 ∧ farewell o { x with unicast := true } l0 = some l' ∧ sentOn l' 2 = [] ∧ unsent e l' 2 = [.retractAll] := by
  obtain ⟨l0, h0, _⟩ := C12_safe calmSteady fresh
  have hl : ((unsent e l0 0).any isHello = false ∧ (l0.bufs 2).bytes.length + 74 ≤ (l0.bufs 2).size) ∧ sentOn l0 2 = [] ∧ unsent e l0 2 = [] := by
    have : ((l.run o calm).map fun l0 => decide (((unsent e l0 0).any isHello = false ∧ (l0.bufs 2).bytes.length + 74 ≤ (l0.bufs 2).size) ∧
      sentOn l0 2 = [] ∧ unsent e l0 2 = [])) = some true := by decide +kernel
    rw [h0] at this
    exact of_decide_eq_true (Option.some.inj this)
  obtain ⟨l', h1, h2, h3, _⟩ := C84_unicast_false (x := { x with unicast := true }) calmSteady fresh h0 ok rfl rfl (by decide) (by decide) e (by decide)
    hl.1.1 2 (by decide) hl.1.2
  exact ⟨l0, l', h0, h1, by rw [h2, hl.2.1], by rw [h3, hl.2.2]; rfl⟩

end Babel
