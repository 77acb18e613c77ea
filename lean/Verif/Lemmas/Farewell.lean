import Verif.Model.Farewell
import Verif.Props.Buffer
import Verif.Spec.Farewell
set_option linter.unusedVariables false
namespace Babel
open Spec

theorem Link.run_append_eq (o : Orc) (a b : List Act) : ∀ l : Link, l.run o (a ++ b) = (l.run o a).bind fun l1 => l1.run o b := by
  induction a with
  | nil => intro l; rfl
  | cons x xs ih =>
    intro l
    rw [List.cons_append, Link.run, Link.run]
    cases h : l.step o x.c x.now x.i x.op with
    | none => rfl
    | some l1 => exact ih l1

theorem toldOn_append (o : Orc) (e : PEnv) (i : Nat) (a b : List Act) : ∀ l l1 : Link, l.run o a = some l1 →
    toldOn o e i l (a ++ b) = toldOn o e i l a ++ toldOn o e i l1 b := by
  induction a with
  | nil => intro l l1 h; cases h; rfl
  | cons x xs ih =>
    intro l l1 h
    rw [Link.run] at h
    rw [List.cons_append, toldOn, toldOn]
    cases hx : l.step o x.c x.now x.i x.op with
    | none => rw [hx] at h; cases h
    | some l2 =>
      rw [hx] at h
      simp only
      rw [ih l2 l1 h, List.append_assoc]

/-- What is told does not depend on the contents of the buffer. -/
def Firm : Snd → Prop
  | .hello _ _ _ force => force = true
  | _ => True

theorem told_firm (e : PEnv) (c : SIf) (p : Bool) (op : Snd) (h : Firm op) : told e c p op = told e c false op := by
  cases op with
  | hello s i u f =>
    have : f = true := h
    subst this
    simp [told]
  | request k => cases k <;> rfl
  | _ => rfl

theorem toldOn_firm (o : Orc) (e : PEnv) (i : Nat) (acts : List Act) : ∀ l l1 : Link, l.run o acts = some l1 →
    (∀ x ∈ acts, Firm x.op) →
    toldOn o e i l acts = acts.flatMap fun x => if x.i = i then told e x.c false x.op else [] := by
  induction acts with
  | nil => intro l l1 h _; rfl
  | cons x xs ih =>
    intro l l1 h hf
    rw [Link.run] at h
    rw [toldOn, List.flatMap_cons]
    cases hx : l.step o x.c x.now x.i x.op with
    | none => rw [hx] at h; cases h
    | some l2 =>
      rw [hx] at h
      simp only
      rw [ih l2 l1 h (fun y hy => hf y (List.mem_cons_of_mem _ hy)), told_firm _ _ _ _ (hf x (List.mem_cons_self ..))]

theorem step_other {o : Orc} {c : SIf} {now : Timeval} {i j : Nat} {op : Snd} {l l' : Link} (h : l.step o c now i op = some l')
    (hj : j ≠ i) : l'.bufs j = l.bufs j ∧ sentOn l' j = sentOn l j := by
  unfold Link.step at h
  cases ht : op.run o c now (l.tx i) with
  | none => rw [ht] at h; cases h
  | some t =>
    rw [ht] at h
    cases h
    refine ⟨by simp [hj], ?_⟩
    have := sentOn_step (l := l) (l' := ⟨fun j => if j = i then t.buf else l.bufs j, t.pc, t.index, t.draws, t.rnds, l.out ++ t.out.map fun p => (i, p)⟩)
      (ps := t.out) (x := ⟨c, now, i, op⟩) rfl j
    rw [this]
    simp [Ne.symm hj]

theorem linkRun_other {o : Orc} {j : Nat} (acts : List Act) : ∀ l l' : Link, l.run o acts = some l' → (∀ x ∈ acts, x.i ≠ j) →
    l'.bufs j = l.bufs j ∧ sentOn l' j = sentOn l j := by
  induction acts with
  | nil => intro l l' h _; cases h; exact ⟨rfl, rfl⟩
  | cons x xs ih =>
    intro l l' h hn
    rw [Link.run] at h
    cases hx : l.step o x.c x.now x.i x.op with
    | none => rw [hx] at h; cases h
    | some l2 =>
      rw [hx] at h
      obtain ⟨a1, a2⟩ := step_other hx (Ne.symm (hn x (List.mem_cons_self ..)))
      obtain ⟨b1, b2⟩ := ih l2 l' h (fun y hy => hn y (List.mem_cons_of_mem _ hy))
      exact ⟨b1.trans a1, b2.trans a2⟩

theorem scheduleFlush_out (o : Orc) (now : Timeval) (t : Tx) : (scheduleFlush o now t).out = t.out ∧ (scheduleFlush o now t).buf.hello = t.buf.hello := by
  unfold scheduleFlush scheduleFlushMs
  split <;> exact ⟨rfl, rfl⟩

theorem put_hello {b b' : Buf} {x : Bytes} (h : b.put x = some b') : b'.hello = b.hello := by
  unfold Buf.put at h
  split at h
  · cases h; rfl
  · cases h

theorem sendPc_hello {o : Orc} {t t' : Tx} (h : sendPc o t = some t') : t'.buf.hello = t.buf.hello := by
  unfold sendPc at h
  split at h
  · cases h; rfl
  · simp only at h
    split at h
    · cases h; rfl
    · next t1 hr =>
      have e1 : t1.buf = t.buf := by
        split at hr
        · split at hr
          · cases hr
          · cases hr; rfl
        · cases hr; rfl
      cases hp : t1.buf.put ([17, 12] ++ htonl t1.pc ++ t1.index) with
      | none => rw [hp] at h; cases h
      | some b =>
        rw [hp] at h
        cases h
        show b.hello = _
        rw [put_hello hp, e1]

theorem flushbuf_hello {o : Orc} {c : SIf} {now : Timeval} {t t' : Tx} (h : flushbuf o c now t = some t')
    (hn : t.buf.hello = none) : t'.buf.hello = none := by
  unfold flushbuf at h
  by_cases h1 : t.buf.bytes.length > t.buf.size
  · rw [if_pos h1] at h; cases h
  · rw [if_neg h1] at h
    by_cases h2 : t.buf.bytes.length > 0
    · rw [if_pos h2] at h
      cases h3 : addPc o c t with
      | none => rw [h3] at h; cases h
      | some t2 =>
        rw [h3] at h
        have e2 : t2.buf.hello = none := by
          unfold addPc at h3
          split at h3
          · rw [sendPc_hello h3, hn]
          · cases h3; exact hn
        have e3 : fillRtt c now t2.buf = some t2.buf := by
          unfold fillRtt
          rw [e2]
          cases c.timestamps <;> rfl
        simp only [Option.bind_eq_bind, Option.bind_some, e3] at h
        cases h4 : trailer c t2.buf with
        | none => rw [h4] at h; cases h
        | some r =>
          rw [h4] at h
          cases r with
          | none => cases h; exact e2
          | some tr => cases h; rfl
    · rw [if_neg h2] at h; cases h; rfl

/-- Writing a retraction. -/
theorem retraction_run {o : Orc} {c : SIf} {now : Timeval} {q : Nat} {t t' : Tx} (h : bufferRetraction o c now q t = some t') :
    (t.buf.hello = none → t'.buf.hello = none) ∧
    ((t.buf.bytes.length + 74 ≤ t.buf.size) → t'.out = t.out ∧ t'.buf.hello = t.buf.hello) := by
  unfold bufferRetraction message startMessage at h
  cases he : ensureSpace o c now (10 + 2) t with
  | none => rw [he] at h; cases h
  | some t1 =>
    rw [he] at h
    simp only [Option.bind_eq_bind, Option.bind_some] at h
    cases hp : t1.buf.put [UInt8.ofNat 8, UInt8.ofNat 10] with
    | none => rw [hp] at h; cases h
    | some b1 =>
      rw [hp] at h
      simp only [Option.bind_some, Option.pure_def] at h
      cases hq : b1.put ([0, 0, 0, 0] ++ htons 0xFFFF ++ htons q ++ htons 0xFFFF) with
      | none => rw [hq] at h; cases h
      | some b2 =>
        rw [hq] at h
        simp only [Option.bind_some] at h
        unfold endMessage at h
        split at h
        · simp only [Option.bind_some, Option.some.injEq] at h
          subst h
          obtain ⟨s1, s2⟩ := scheduleFlush_out o now { t1 with buf := b2 }
          have e1 : b2.hello = t1.buf.hello := (put_hello hq).trans (put_hello hp)
          unfold ensureSpace at he
          simp only at he
          constructor
          · intro hn
            show (scheduleFlush o now _).buf.hello = none
            rw [s2, e1]
            by_cases hc : (t.buf.size : Int) - t.buf.bytes.length < (if c.key.isSome then 10 + 2 + hmacSpace else 10 + 2 : Nat)
            · rw [if_pos hc] at he; exact flushbuf_hello he hn
            · rw [if_neg hc] at he; cases he; exact hn
          · intro hr
            have hc : ¬ (t.buf.size : Int) - t.buf.bytes.length < (if c.key.isSome then 10 + 2 + hmacSpace else 10 + 2 : Nat) := by
              unfold hmacSpace; split <;> omega
            rw [if_neg hc] at he
            cases he
            exact ⟨s1, s2.trans e1⟩
        · cases h

theorem retract_steady {a tf : Bool} {o : Orc} {x : LastIf} (ho : ∀ n i, o.rand n = some i → i.length = 8) (hx : LastOk a tf x) :
    Steady a tf o x.retract := by
  obtain ⟨h1, h2, h3, h4, h5, h6, h7⟩ := hx
  refine ⟨ho, fun y hy => ?_⟩
  unfold LastIf.retract at hy
  rw [List.mem_map] at hy
  obtain ⟨i, _, rfl⟩ := hy
  exact ⟨h1, h2, h3, h4, h5⟩

theorem updates_steady {a tf : Bool} {o : Orc} {x : LastIf} (ho : ∀ n i, o.rand n = some i → i.length = 8) (hx : LastOk a tf x) :
    Steady a tf o x.updates := by
  obtain ⟨h1, h2, h3, h4, h5, h6, h7⟩ := hx
  refine ⟨ho, fun y hy => ?_⟩
  unfold LastIf.updates at hy
  rw [List.mem_append, List.mem_flatMap] at hy
  rcases hy with ⟨u, hu, hy⟩ | hy
  · rw [List.mem_map] at hy
    obtain ⟨i, _, rfl⟩ := hy
    exact ⟨h1, h2, h3, h4, h7 u hu⟩
  · rw [List.mem_singleton] at hy
    subst hy
    exact ⟨h1, h2, h3, h4, trivial⟩

theorem steady_join {a tf : Bool} {o : Orc} {p q : List Act} (h1 : Steady a tf o p) (h2 : Steady a tf o q) : Steady a tf o (p ++ q) :=
  ⟨h1.1, fun x hx => (List.mem_append.1 hx).elim (h1.2 x) (h2.2 x)⟩

theorem once_told (e : PEnv) (x : LastIf) (j : Nat) : ∀ ns : List Nat, ns.Nodup → j ∈ ns →
    (ns.map fun i => (⟨x.c, x.now, i, .retraction x.myseqno⟩ : Act)).flatMap
      (fun y => if y.i = j then told e y.c false y.op else []) = [.retractAll] := by
  intro ns
  induction ns with
  | nil => intro _ hj; cases hj
  | cons n ns ih =>
    intro hd hj
    rw [List.nodup_cons] at hd
    rw [List.map_cons, List.flatMap_cons]
    by_cases hn : n = j
    · subst hn
      have : (ns.map fun i => (⟨x.c, x.now, i, .retraction x.myseqno⟩ : Act)).flatMap
          (fun y => if y.i = n then told e y.c false y.op else []) = [] := by
        rw [List.flatMap_eq_nil_iff]
        intro y hy
        rw [List.mem_map] at hy
        obtain ⟨i, hi, rfl⟩ := hy
        exact if_neg fun h => hd.1 (by rw [← show i = n from h]; exact hi)
      rw [this]
      simp [told]
    · rw [ih hd.2 ((List.mem_cons.1 hj).resolve_left (Ne.symm hn))]
      simp [hn]

/-- The operations that follow the retraction. -/
def LastIf.rest (x : LastIf) (b : Bool) : List Act :=
  (if b then x.updates else []) ++ [⟨x.c, x.now, 0, .hello x.helloSeqno 10 false true⟩]

theorem rest_steady {a tf : Bool} {o : Orc} {x : LastIf} (ho : ∀ n i, o.rand n = some i → i.length = 8) (hx : LastOk a tf x) (b : Bool) :
    Steady a tf o (x.rest b) := by
  refine steady_join ?_ ⟨ho, fun y hy => ?_⟩
  · cases b
    · exact ⟨ho, by simp⟩
    · exact updates_steady ho hx
  · obtain ⟨h1, h2, h3, h4, h5, h6, h7⟩ := hx
    rw [List.mem_singleton] at hy
    subst hy
    exact ⟨h1, h2, h3, h4, h6⟩

theorem flush_steady {a tf : Bool} {o : Orc} {x : LastIf} (ho : ∀ n i, o.rand n = some i → i.length = 8) (hx : LastOk a tf x) :
    Steady a tf o [⟨x.c, x.now, 0, .flush⟩] := by
  obtain ⟨h1, h2, h3, h4, h5, h6, h7⟩ := hx
  refine ⟨ho, fun y hy => ?_⟩
  rw [List.mem_singleton] at hy
  subst hy
  exact ⟨h1, h2, h3, h4, trivial⟩

/-- The whole of `farewell` as a run. -/
theorem farewell_run {a tf : Bool} {o : Orc} {acts : List Act} {l l0 : Link} {x : LastIf} (hs : Steady a tf o acts) (hf : FreshLink l)
    (hr : l.run o acts = some l0) (hx : LastOk a tf x) (hup : x.c.up = true) :
    ∃ l1 l', l0.run o x.retract = some l1 ∧ farewell o x l0 = some l' ∧
      l1.run o (x.rest (l1.bufs 0).hello.isSome ++ [⟨x.c, x.now, 0, .flush⟩]) = some l' ∧
      l.run o (acts ++ x.retract) = some l1 ∧
      l.run o (acts ++ x.retract ++ x.rest (l1.bufs 0).hello.isSome ++ [⟨x.c, x.now, 0, .flush⟩]) = some l' ∧
      Steady a tf o (acts ++ x.retract ++ x.rest (l1.bufs 0).hello.isSome ++ [⟨x.c, x.now, 0, .flush⟩]) := by
  have s1 := steady_join hs (retract_steady hs.1 hx)
  obtain ⟨l1, h1, _⟩ := C12_safe s1 hf
  have h1' := h1
  rw [Link.run_append_eq, hr] at h1'
  have s2 := steady_join (steady_join s1 (rest_steady hs.1 hx (l1.bufs 0).hello.isSome)) (flush_steady hs.1 hx)
  obtain ⟨l', h2, _⟩ := C12_safe s2 hf
  have h2' := h2
  rw [List.append_assoc, Link.run_append_eq, h1] at h2'
  refine ⟨l1, l', h1', ?_, h2', h1, h2, s2⟩
  unfold farewell
  rw [hup]
  simp only [Bool.not_true, Bool.false_eq_true, if_false, Option.bind_eq_bind]
  rw [show l0.run o x.retract = some l1 from h1']
  simp only [Option.bind_some]
  rw [← h2']
  unfold LastIf.rest
  simp only [List.append_assoc, List.cons_append, List.nil_append]
  rfl

end Babel
