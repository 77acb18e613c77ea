import Verif.Lemmas.Buffer6
/-
Runs of operations on the buffers of an interface.
-/
set_option linter.unusedSimpArgs false
set_option linter.unusedVariables false
namespace Babel
open Spec

/-- `P` holds of the result, if any. -/
def AllRes (P : α → Prop) (x : Option α) : Prop := ∀ r, x = some r → P r

theorem AllRes.some {P : α → Prop} {a : α} (h : P a) : AllRes P (some a) := by
  intro r hr; cases hr; exact h

theorem AllRes.pure {P : α → Prop} {a : α} (h : P a) : AllRes P (pure a) := by
  intro r hr; cases hr; exact h

theorem AllRes.bind {P : α → Prop} {x : Option β} {f : β → Option α} (h : ∀ b, AllRes P (f b)) : AllRes P (x >>= f) := by
  intro r hr
  cases x with
  | none => cases hr
  | some b => exact h b r hr

theorem AllRes.bindWith {P : α → Prop} {Q : β → Prop} {x : Option β} {f : β → Option α} (hx : AllRes Q x)
    (h : ∀ b, Q b → AllRes P (f b)) : AllRes P (x >>= f) := by
  intro r hr
  cases x with
  | none => cases hr
  | some b => exact h b (hx b rfl) r hr

def NoHello (r : PState × List Item) : Prop := ∀ i ∈ r.2, isHello i = false

theorem updateItems_noHello (e s ae l pfx sq m iv a al) :
    AllRes (fun r : List Item => ∀ i ∈ r, isHello i = false) (updateItems e s ae l pfx sq m iv a al) := by
  unfold updateItems
  repeat' first
    | (refine AllRes.some ?_; simp [isHello]; done)
    | (refine AllRes.pure ?_; simp [isHello]; done)
    | (refine AllRes.bind fun _ => ?_)
    | split

theorem parseTlv_noHello (e : PEnv) (s : PState) (ty : Nat) (m : Bytes) (len : Nat) (h : ty ≠ 4) :
    AllRes NoHello (parseTlv e s ty m len) := by
  unfold parseTlv
  rw [if_neg (c := ty = 4) h]
  repeat' split
  · unfold tlvAckReq
    repeat' first
      | (refine AllRes.some ?_; simp [NoHello, isHello]; done)
      | (refine AllRes.pure ?_; simp [NoHello, isHello]; done)
      | (refine AllRes.bind fun _ => ?_)
      | split
  · unfold tlvAck
    repeat' first
      | (refine AllRes.some ?_; simp [NoHello, isHello]; done)
      | (refine AllRes.pure ?_; simp [NoHello, isHello]; done)
      | (refine AllRes.bind fun _ => ?_)
      | split
  · unfold tlvIhu
    repeat' first
      | (refine AllRes.some ?_; simp [NoHello, isHello]; done)
      | (refine AllRes.pure ?_; simp [NoHello, isHello]; done)
      | (refine AllRes.bind fun _ => ?_)
      | split
  · unfold tlvRouterId
    repeat' first
      | (refine AllRes.some ?_; simp [NoHello, isHello]; done)
      | (refine AllRes.pure ?_; simp [NoHello, isHello]; done)
      | (refine AllRes.bind fun _ => ?_)
      | split
  · unfold tlvNh
    repeat' first
      | (refine AllRes.some ?_; simp [NoHello, isHello]; done)
      | (refine AllRes.pure ?_; simp [NoHello, isHello]; done)
      | (refine AllRes.bind fun _ => ?_)
      | split
  · unfold tlvUpdate
    repeat' first
      | (refine AllRes.some ?_; simp [NoHello, isHello]; done)
      | (refine AllRes.pure ?_; simp [NoHello, isHello]; done)
      | exact AllRes.bindWith (updateItems_noHello _ _ _ _ _ _ _ _ _ _) fun l hl => AllRes.pure hl
      | (refine AllRes.bind fun _ => ?_)
      | split
  · unfold tlvRequest
    repeat' first
      | (refine AllRes.some ?_; simp [NoHello, isHello]; done)
      | (refine AllRes.pure ?_; simp [NoHello, isHello]; done)
      | (refine AllRes.bind fun _ => ?_)
      | split
  · unfold tlvSeqno
    repeat' first
      | (refine AllRes.some ?_; simp [NoHello, isHello]; done)
      | (refine AllRes.pure ?_; simp [NoHello, isHello]; done)
      | (refine AllRes.bind fun _ => ?_)
      | split
  · refine AllRes.some ?_; simp [NoHello]

theorem one_noHello (e : PEnv) (s : PState) (ty : UInt8) (b : Bytes) (h : ty ≠ 4) : NoHello (one e s ty b) := by
  unfold one
  cases hx : parseTlv e s ty.toNat (ty :: UInt8.ofNat b.length :: b) b.length with
  | none => simp [NoHello]
  | some r =>
    exact parseTlv_noHello e s ty.toNat _ _ (by intro h'; exact h (UInt8.toNat_inj.1 h')) r hx

theorem its_noHello (e : PEnv) (ts : List Tlv) (s : PState) (h : ∀ x, Tlv.tlv 4 x ∉ ts) : ∀ i ∈ its e s ts, isHello i = false := by
  induction ts generalizing s with
  | nil => intro i hi; cases hi
  | cons t ts ih =>
    have ih := fun s => ih s (fun x hx => h x (by simp [hx]))
    cases t with
    | pad1 => exact ih s
    | tlv ty b =>
      have h1 := one_noHello e s ty b (by rintro rfl; exact h b (by simp))
      intro i hi
      unfold its at hi
      simp only [many, List.map_append, List.mem_append] at hi
      rcases hi with hi | hi
      · rw [List.mem_map] at hi
        obtain ⟨j, hj, rfl⟩ := hi
        have := h1 j hj
        cases j <;> simp_all [untimed, isHello]
      · exact ih _ i hi

theorem any_hello {a tf : Bool} {b : Buf} {ts : List Tlv} (g : Good a tf b ts) (e : PEnv) :
    (its e {} ts).any isHello = b.hello.isSome := by
  rcases g.hello with ⟨h1, h2⟩ | ⟨ts1, f, ts2, h1, h2, h3, h4, h5⟩
  · rw [h1]
    show _ = false
    rw [Bool.eq_false_iff]
    intro h
    rw [List.any_eq_true] at h
    obtain ⟨i, hi, h⟩ := h
    rw [its_noHello e ts {} h2 i hi] at h
    cases h
  · rw [h1]
    rw [h2, its_append]
    obtain ⟨u, q, i, o1, _⟩ := one_hello e (many e {} ts1).1 f h3 tf ⟨0, 0⟩
    have : its e (many e {} ts1).1 (.tlv 4 (f ++ stampPad tf) :: ts2) =
        .hello u q i none :: its e (many e {} ts1).1 ts2 := by
      unfold its
      simp only [many, o1, List.map_append]
      rfl
    rw [this]
    simp [isHello]

/-- The state of the buffers of an interface. -/
structure LGood (a tf : Bool) (l : Link) (tss : Nat → List Tlv) : Prop where
  good : ∀ i, Good a tf (l.bufs i) (tss i)
  idx : l.index.length = 8

theorem LGood.unsent {a tf l tss} (g : LGood a tf l tss) (e : PEnv) (he : linklocal e.sender) (i : Nat) :
    unsent e l i = its e {} (tss i) := heard_buf (g.good i) e he

theorem Spec.FreshLink.good {a tf l} (h : FreshLink l) : LGood a tf l (fun _ => []) := by
  refine ⟨fun i => ?_, h.2.2.1⟩
  obtain ⟨h1, h2, h3, h4, h5, h6, h7⟩ := h.1 i
  refine ⟨h1, h2, h3, by simp, ?_, .inl ⟨h7, by simp⟩, by simp, ?_, ?_, ?_, fun e => rfl⟩
  · rw [h3]; unfold reserve; simp; split <;> omega
  · intro e x h; rw [h4] at h; cases h
  · intro e x h; rw [h5] at h; cases h
  · intro e x h; rw [h6] at h; cases h

/-- The packets sent by one operation. -/
inductive Sent1 (o : Orc) (tf : Bool) (x : Act) (ts : List Tlv) (dst : Bytes) (size pc : Nat) (index : Bytes) (draws : Nat) :
    List Bytes → Nat → Bytes → Nat → Prop
  | none : Sent1 o tf x ts dst size pc index draws [] pc index draws
  | sent (tr ex pc' ix' dr') : ts ≠ [] → nextCtr o x.c.auth.isSome pc index draws = (ex, pc', ix', dr') →
      (encAll (ts.map (stampTlv tf x.now) ++ ex)).length + tr.length ≤ size →
      (∀ x ∈ ex, x.Ok ∧ ∃ b, x = .tlv 17 b) →
      TrailerOk x.c dst size (encAll (ts.map (stampTlv tf x.now) ++ ex)) tr →
      Sent1 o tf x ts dst size pc index draws [packet (encAll (ts.map (stampTlv tf x.now) ++ ex)) tr] pc' ix' dr'

theorem step_ok {a tf o l tss} (x : Act) (hs : Steady a tf o [x]) (g : LGood a tf l tss) :
    ∃ l' ts' ps, l.step o x.c x.now x.i x.op = some l' ∧
      LGood a tf l' (fun j => if j = x.i then ts' else tss j) ∧
      l'.out = l.out ++ ps.map (fun p => (x.i, p)) ∧
      Sent1 o tf x (tss x.i) (l.bufs x.i).dst (l.bufs x.i).size l.pc l.index l.draws ps l'.pc l'.index l'.draws ∧
      (∀ i, (l'.bufs i).size = (l.bufs i).size) ∧ (ps = [] → ∃ new, ts' = tss x.i ++ new) ∧
      ∀ e, linklocal e.sender → ps.flatMap (heard e) ++ its e {} ts' =
        its e {} (tss x.i) ++ told e x.c (l.bufs x.i).hello.isSome x.op := by
  obtain ⟨h1, h2, h3, h4, h5⟩ := hs.2 x (by simp)
  have hc : Circ a tf o x.c := ⟨h1, h2, h3, hs.1, h4⟩
  have g0 := g.good x.i
  obtain ⟨t', ts', r1, d⟩ := op_ok hc x.now (t := l.tx x.i) x.op h5 g0 g.idx
  obtain ⟨t1, base, new, e1, e2, e3, e4, e5, e6, e7⟩ := d.how
  have hl : l.step o x.c x.now x.i x.op = some ⟨fun j => if j = x.i then t'.buf else l.bufs j, t'.pc, t'.index, t'.draws, t'.rnds,
      l.out ++ t'.out.map fun p => (x.i, p)⟩ := by
    unfold Link.step; rw [r1]; rfl
  refine ⟨_, ts', t'.out, hl, ⟨?_, d.idx⟩, rfl, ?_, ?_, ?_, ?_⟩
  · intro j
    by_cases hj : j = x.i
    · simp only [hj, if_true]; exact d.good
    · simp only [hj, if_false]; exact g.good j
  · show Sent1 _ _ _ _ _ _ _ _ _ t'.out t'.pc t'.index t'.draws
    rw [e3, e4, e5, e6]
    rcases e1 with ⟨rfl, rfl⟩ | ⟨f, rfl⟩
    · exact .none
    · cases f with
      | empty h => exact .none
      | sent tr ex pc ix dr f0 f1 f2 f3 f4 f5 => exact .sent tr ex pc ix dr f0 f1 f2 f4 f5
  · intro j
    show (if j = x.i then t'.buf else l.bufs j).size = _
    by_cases hj : j = x.i
    · rw [if_pos hj, hj]; exact d.size
    · rw [if_neg hj]
  · intro hps
    rw [e3] at hps
    rcases e1 with ⟨rfl, rfl⟩ | ⟨f, rfl⟩
    · exact ⟨new, e2⟩
    · cases f with
      | empty h => exact ⟨new, by rw [e2, h]⟩
      | sent tr ex pc ix dr f0 f1 f2 f3 f4 f5 => simp at hps
  · intro e he
    rw [e3, e2, its_append]
    have h7 : its e (many e {} base).1 new = told e x.c (l.bufs x.i).hello.isSome x.op := e7 e
    rw [h7, ← List.append_assoc]
    congr 1
    rcases e1 with ⟨rfl, rfl⟩ | ⟨f, rfl⟩
    · rfl
    · cases f with
      | empty h => rw [h]; rfl
      | sent tr ex pc ix dr f0 f1 f2 f3 f4 f5 =>
        have hlt : (encAll ((tss x.i).map (stampTlv tf x.now) ++ ex)).length < 65536 := by
          have := g0.hi
          have : (encAll ((tss x.i).map (stampTlv tf x.now) ++ ex)).length + tr.length ≤ (l.bufs x.i).size := f2
          omega
        have := heard_sent g0 x.now e he ex f4 tr hlt
        simp only [Link.tx, List.nil_append, List.flatMap_cons, List.flatMap_nil, List.append_nil]
        rw [this]
        simp [its, many]

theorem Spec.Steady.head {a tf o x xs} (h : Steady a tf o (x :: xs)) : Steady a tf o [x] ∧ Steady a tf o xs :=
  ⟨⟨h.1, fun y hy => h.2 y (by rw [List.mem_singleton] at hy; simp [hy])⟩, h.1, fun y hy => h.2 y (by simp [hy])⟩

/-- A property of all links of a run. -/
theorem run_ind {a tf o} (Q : Act → Prop) (P : Link → Prop)
    (hP : ∀ l l' tss ts' ps x, Q x → Steady a tf o [x] → LGood a tf l tss → P l →
      l.step o x.c x.now x.i x.op = some l' → LGood a tf l' (fun j => if j = x.i then ts' else tss j) →
      l'.out = l.out ++ ps.map (fun p => (x.i, p)) →
      Sent1 o tf x (tss x.i) (l.bufs x.i).dst (l.bufs x.i).size l.pc l.index l.draws ps l'.pc l'.index l'.draws →
      (∀ i, (l'.bufs i).size = (l.bufs i).size) → P l') :
    ∀ (acts : List Act) (l : Link) (tss : Nat → List Tlv), Steady a tf o acts → (∀ x ∈ acts, Q x) →
      LGood a tf l tss → P l → ∃ l' tss', l.run o acts = some l' ∧ LGood a tf l' tss' ∧ P l' := by
  intro acts
  induction acts with
  | nil => intro l tss hs hQ g p; exact ⟨l, tss, rfl, g, p⟩
  | cons x xs ih =>
    intro l tss hs hQ g p
    obtain ⟨hx, hxs⟩ := Spec.Steady.head hs
    obtain ⟨l1, ts', ps, r1, r2, r3, r4, r5, r7, r6⟩ := step_ok x hx g
    obtain ⟨l2, tss', q1, q2, q3⟩ := ih l1 _ hxs (fun y hy => hQ y (by simp [hy])) r2
      (hP l l1 tss ts' ps x (hQ x (by simp)) hx g p r1 r2 r3 r4 r5)
    refine ⟨l2, tss', ?_, q2, q3⟩
    unfold Link.run
    rw [r1]
    exact q1

theorem filter_self (i : Nat) (ps : List Bytes) : ((ps.map fun p => (i, p)).filter fun p => p.1 == i).map (·.2) = ps := by
  induction ps with
  | nil => rfl
  | cons p ps ih => simp at ih ⊢; exact ih

theorem run_told {a tf o} (e : PEnv) (he : linklocal e.sender) (i : Nat) :
    ∀ (acts : List Act) (l l' : Link) (tss : Nat → List Tlv), Steady a tf o acts → LGood a tf l tss → l.run o acts = some l' →
      (sentOn l' i).flatMap (heard e) ++ unsent e l' i =
        (sentOn l i).flatMap (heard e) ++ unsent e l i ++ toldOn o e i l acts := by
  intro acts
  induction acts with
  | nil =>
    intro l l' tss hs g h
    cases h
    simp [toldOn]
  | cons x xs ih =>
    intro l l' tss hs g h
    obtain ⟨hx, hxs⟩ := Spec.Steady.head hs
    obtain ⟨l1, ts', ps, r1, r2, r3, r4, r5, r7, r6⟩ := step_ok x hx g
    unfold Link.run at h
    rw [r1] at h
    have := ih l1 l' _ hxs r2 h
    rw [this]
    rw [show toldOn o e i l (x :: xs) = (if x.i = i then told e x.c ((unsent e l i).any isHello) x.op else []) ++ toldOn o e i l1 xs by
      show _ ++ (match l.step o x.c x.now x.i x.op with | some l' => toldOn o e i l' xs | none => []) = _
      rw [r1]]
    rw [← List.append_assoc]
    congr 1
    rw [g.unsent e he i, r2.unsent e he i]
    unfold sentOn
    rw [r3, List.filter_append, List.map_append, List.flatMap_append]
    by_cases hi : x.i = i
    · subst hi
      simp only [if_true]
      have hf := filter_self x.i ps
      rw [hf, any_hello (g.good x.i), List.append_assoc, List.append_assoc, r6 e he]
    · have hf : ((ps.map fun p => (x.i, p)).filter fun p => p.1 == i).map (·.2) = [] := by
        simp [hi]
      have hi' : ¬ i = x.i := fun h => hi h.symm
      rw [hf]
      simp [hi, hi']

end Babel
