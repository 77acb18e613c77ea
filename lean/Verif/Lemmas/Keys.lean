import Verif.Model.Node
import Verif.Lemmas.Queue
import Verif.Lemmas.Decomp
/-
Where the destinations and router-ids in the state of the daemon and in the messages it sends come
from: invariants `P` of destinations and `I` of router-ids.
-/
set_option linter.unusedSimpArgs false
set_option linter.unusedVariables false
set_option linter.unusedSectionVars false
namespace Babel

/-- The message mentions only destinations in `P` and router-ids in `I`. -/
def OutKeys (P : PKey → Prop) (I : Bytes → Prop) : Out → Prop
  | .update _ id k _ m => P k ∧ I id ∧ m ≤ INFINITY
  | .request _ _ k => ∀ k', k = some k' → P k'
  | .mhRequest _ _ k _ id h => P k ∧ I id ∧ h < 256
  | _ => True

/-- All destinations in the state are in `P`, those of redistributed routes in `X`, and all router-ids
in `I`. -/
structure Keys (P X : PKey → Prop) (I : Bytes → Prop) (s : St) : Prop where
  routes : ∀ r ∈ s.routes, P r.key ∧ I r.id
  xroutes : ∀ x ∈ s.xroutes, X x.key
  queue : ∀ f ∈ s.ifaces, ∀ k ∈ f.queue, P k
  resends : ∀ r ∈ s.resends, P r.key ∧ (r.kind = .request → I r.id)
  out : ∀ o ∈ s.out, OutKeys P I o

/-- What the invariants have to satisfy. -/
structure Rules (c : Cfg) (P X : PKey → Prop) (I : Bytes → Prop) : Prop where
  own : I c.myid
  sub : ∀ k, X k → P k
  mix : ∀ a b, X a → X b → P ⟨a.prefix_, b.plen, b.srcPrefix, a.srcPlen⟩

/-- The parameters of an interface. -/
def Iface.fixed (x : Iface) : Iface :=
  { x with queue := [], queueCap := 0, updateFlush := ⟨0, 0⟩, updateTimeout := ⟨0, 0⟩ }

/-- A step that keeps the invariants, the clock, the parameters of the interfaces and the link costs, and
only adds to the outputs. -/
structure Tame (P X : PKey → Prop) (I : Bytes → Prop) (s s' : St) : Prop where
  keys : Keys P X I s'
  now : s'.now = s.now
  ncost : s'.ncost = s.ncost
  ifs : s'.ifaces.map Iface.fixed = s.ifaces.map Iface.fixed
  out : ∃ new, s'.out = new ++ s.out

section
variable {c : Cfg} {P X : PKey → Prop} {I : Bytes → Prop}

theorem Tame.refl {s : St} (h : Keys P X I s) : Tame P X I s s := ⟨h, rfl, rfl, rfl, [], rfl⟩

theorem Tame.trans {a b d : St} (h : Tame P X I a b) (g : Tame P X I b d) : Tame P X I a d := by
  obtain ⟨n1, e1⟩ := h.out
  obtain ⟨n2, e2⟩ := g.out
  exact ⟨g.keys, g.now.trans h.now, g.ncost.trans h.ncost, g.ifs.trans h.ifs, n2 ++ n1, by rw [e2, e1, List.append_assoc]⟩

theorem Tame.foldl {α : Type} (f : St → α → St) (l : List α) {s : St} (h : Keys P X I s)
    (hf : ∀ x ∈ l, ∀ s, Keys P X I s → Tame P X I s (f s x)) : Tame P X I s (l.foldl f s) := by
  induction l generalizing s with
  | nil => exact .refl h
  | cons x l ih =>
    have h1 := hf x (List.mem_cons_self ..) s h
    exact h1.trans (ih h1.keys fun y hy => hf y (List.mem_cons_of_mem _ hy))

theorem tame_emit {s : St} (h : Keys P X I s) (o : Out) (ho : OutKeys P I o) : Tame P X I s (emit s o) :=
  ⟨⟨h.routes, h.xroutes, h.queue, h.resends, fun o' m => by
      rcases List.mem_cons.1 m with rfl | m
      · exact ho
      · exact h.out _ m⟩, rfl, rfl, rfl, [o], rfl⟩

theorem tame_sources {s : St} (h : Keys P X I s) (l : List Source) : Tame P X I s { s with sources := l } :=
  ⟨⟨h.routes, h.xroutes, h.queue, h.resends, h.out⟩, rfl, rfl, rfl, [], rfl⟩

theorem tame_resends {s : St} (h : Keys P X I s) (l : List Resend)
    (hl : ∀ r ∈ l, P r.key ∧ (r.kind = .request → I r.id)) : Tame P X I s { s with resends := l } :=
  ⟨⟨h.routes, h.xroutes, h.queue, hl, h.out⟩, rfl, rfl, rfl, [], rfl⟩

theorem tame_resendTime {s : St} (h : Keys P X I s) (t : Timeval) : Tame P X I s { s with resendTime := t } :=
  ⟨⟨h.routes, h.xroutes, h.queue, h.resends, h.out⟩, rfl, rfl, rfl, [], rfl⟩

theorem tame_rand {s : St} (h : Keys P X I s) (t : Nat → Nat) : Tame P X I s { s with rand := t } :=
  ⟨⟨h.routes, h.xroutes, h.queue, h.resends, h.out⟩, rfl, rfl, rfl, [], rfl⟩

theorem tame_kernel {s : St} (h : Keys P X I s) (t : Nat → KRes) (l : List KEntry) :
    Tame P X I s { s with kres := t, fib := l } :=
  ⟨⟨h.routes, h.xroutes, h.queue, h.resends, h.out⟩, rfl, rfl, rfl, [], rfl⟩

theorem tame_myseqno {s : St} (h : Keys P X I s) (q : UInt16) : Tame P X I s { s with myseqno := q } :=
  ⟨⟨h.routes, h.xroutes, h.queue, h.resends, h.out⟩, rfl, rfl, rfl, [], rfl⟩

theorem tame_routes {s : St} (h : Keys P X I s) (l : List Route) (hl : ∀ r ∈ l, P r.key ∧ I r.id) :
    Tame P X I s { s with routes := l } :=
  ⟨⟨hl, h.xroutes, h.queue, h.resends, h.out⟩, rfl, rfl, rfl, [], rfl⟩

theorem tame_xroutes {s : St} (h : Keys P X I s) (l : List Xroute) (hl : ∀ x ∈ l, X x.key) :
    Tame P X I s { s with xroutes := l } :=
  ⟨⟨h.routes, hl, h.queue, h.resends, h.out⟩, rfl, rfl, rfl, [], rfl⟩

theorem tame_modSource {s : St} (h : Keys P X I s) (k : SKey) (f : Source → Source) : Tame P X I s (modSource s k f) :=
  tame_sources h _

theorem tame_ensure {s : St} (h : Keys P X I s) (k : SKey) (q : UInt16) : Tame P X I s (ensureSource s k q) := by
  unfold ensureSource
  split
  · exact .refl h
  · exact tame_sources h _

theorem tame_modRoute {s : St} (h : Keys P X I s) (k : PKey) (n : NeighId) (f : Route → Route)
    (hf : ∀ r, P r.key ∧ I r.id → P (f r).key ∧ I (f r).id) : Tame P X I s (modRoute s k n f) := by
  refine tame_routes h _ fun r hr => ?_
  obtain ⟨r', hr', e⟩ := List.mem_map.1 hr
  subst e
  split
  · exact hf _ (h.routes _ hr')
  · exact h.routes _ hr'

theorem tame_modIf {s : St} (h : Keys P X I s) (i : IfId) (f : Iface → Iface)
    (hq : ∀ x ∈ s.ifaces, (∀ k ∈ x.queue, P k) → ∀ k ∈ (f x).queue, P k) (hf : ∀ x, (f x).fixed = x.fixed) :
    Tame P X I s (modIf s i f) := by
  refine ⟨⟨h.routes, h.xroutes, fun x hx => ?_, h.resends, h.out⟩, rfl, rfl, ?_, [], rfl⟩
  · obtain ⟨y, hy, e⟩ := List.mem_map.1 hx
    subst e
    split
    · exact hq y hy (h.queue y hy)
    · exact h.queue y hy
  · show (s.ifaces.map _).map _ = _
    rw [List.map_map]
    refine List.map_congr_left fun x _ => ?_
    show (if _ then f x else x).fixed = _
    split
    · exact hf x
    · rfl

theorem Keys.find {s : St} (h : Keys P X I s) {k : PKey} {n : NeighId} {r : Route} (hr : findRoute s k n = some r) :
    P k ∧ I r.id := by
  obtain ⟨hm, hk, -⟩ := findRoute_mem hr
  have := h.routes r hm
  rw [hk] at this
  exact this

theorem Keys.installed {s : St} (h : Keys P X I s) {k : PKey} {r : Route} (hr : findInstalled s k = some r) :
    P r.key ∧ I r.id := h.routes r (findInstalled_mem hr).1

/-! ### Resends -/

theorem tame_recompute {s : St} (h : Keys P X I s) : Tame P X I s (recomputeResendTime s) := tame_resendTime h _

theorem tame_satisfy {s : St} (h : Keys P X I s) (k : PKey) (q : UInt16) (id : Bytes) (i : Option IfId) :
    Tame P X I s (satisfyRequest s k q id i) := by
  unfold satisfyRequest
  split
  · exact .refl h
  · split
    · exact .refl h
    · split
      · refine (tame_resends h _ fun r hr => ?_).trans (tame_recompute ?_)
        · obtain hm | ⟨r', hm, e⟩ := modFirst_in _ _ _ _ hr
          · exact h.resends _ hm
          · rw [e]; exact h.resends r' hm
        · exact (tame_resends h _ fun r hr => by
            obtain hm | ⟨r', hm, e⟩ := modFirst_in _ _ _ _ hr
            · exact h.resends _ hm
            · rw [e]; exact h.resends r' hm).keys
      · exact .refl h
where
  modFirst_in (p : Resend → Bool) (f : Resend → Resend) : ∀ (l : List Resend) (r : Resend), r ∈ modFirst p f l →
      r ∈ l ∨ ∃ r' ∈ l, r = f r'
    | [], r, h => absurd h List.not_mem_nil
    | a :: l, r, h => by
      unfold modFirst at h
      split at h
      · rcases List.mem_cons.1 h with e | h
        · exact .inr ⟨a, List.mem_cons_self .., e⟩
        · exact .inl (List.mem_cons_of_mem _ h)
      · rcases List.mem_cons.1 h with e | h
        · exact .inl (e ▸ List.mem_cons_self ..)
        · rcases modFirst_in p f l r h with h | ⟨r', h, e⟩
          · exact .inl (List.mem_cons_of_mem _ h)
          · exact .inr ⟨r', List.mem_cons_of_mem _ h, e⟩

theorem tame_arm {s : St} (h : Keys P X I s) (r : Resend) : Tame P X I s (armResend s r) := by
  unfold armResend
  split
  · exact tame_resendTime h _
  · exact .refl h

theorem refreshResend_keeps (now : Timeval) (q : UInt16) (id : Option Bytes) (i : Option IfId) (d : Nat) (r : Resend) :
    (refreshResend now q id i d r).1.key = r.key ∧ (refreshResend now q id i d r).1.kind = r.kind ∧
    ((refreshResend now q id i d r).1.id = r.id ∨ (refreshResend now q id i d r).1.id = id.getD [0,0,0,0,0,0,0,0]) := by
  unfold refreshResend
  simp only
  split <;> simp

theorem tame_record {s : St} (h : Keys P X I s) (kind : RKind) {k : PKey} (hk : P k) (q : UInt16) (id : Option Bytes)
    (hid : kind = .request → ∃ i, id = some i ∧ I i) (i : Option IfId) (d : Nat) :
    Tame P X I s (recordResend c s kind k q id i d) := by
  unfold recordResend
  split
  · exact .refl h
  · simp only
    split
    · next r hr =>
      have hm := List.mem_of_find?_eq_some hr
      have hmatch := List.find?_some hr
      have hkind : r.kind = kind ∧ r.key = k := by
        unfold resendMatch at hmatch
        simpa using hmatch
      obtain ⟨e1, e2, e3⟩ := refreshResend_keeps s.now q id i (min d 65535) r
      have ht : Tame P X I s { s with
          resends := modFirst (resendMatch kind k) (fun _ => (refreshResend s.now q id i (min d 65535) r).1) s.resends } := by
        refine tame_resends h _ fun x hx => ?_
        rcases tame_satisfy.modFirst_in _ _ _ _ hx with hx | ⟨_, _, e⟩
        · exact h.resends x hx
        · rw [e, e1, e2, hkind.2]
          refine ⟨hk, fun hr' => ?_⟩
          rcases e3 with e3 | e3
          · rw [e3]; exact (h.resends r hm).2 hr'
          · obtain ⟨i', hi', hI⟩ := hid (hkind.1 ▸ hr')
            rw [e3, hi']; exact hI
      split
      · exact ht
      · exact ht.trans (tame_arm ht.keys _)
    · have ht : Tame P X I s { s with resends := newResend s.now kind k q id i (min d 65535) :: s.resends } := by
        refine tame_resends h _ fun x hx => ?_
        rcases List.mem_cons.1 hx with e | hx
        · rw [e]
          refine ⟨hk, fun hr' => ?_⟩
          obtain ⟨i', hi', hI⟩ := hid hr'
          show I (id.getD _)
          rw [hi']; exact hI
        · exact h.resends x hx
      exact ht.trans (tame_arm ht.keys _)

theorem tame_expireResend {s : St} (h : Keys P X I s) : Tame P X I s (expireResend s) := by
  unfold expireResend
  split
  · have ht : Tame P X I s { s with resends := s.resends.filter (fun r => !resendExpired s.now r) } :=
      tame_resends h _ fun r hr => h.resends r (List.mem_filter.1 hr).1
    exact ht.trans (tame_recompute ht.keys)
  · exact .refl h

/-! ### The queue -/

theorem tame_really {s : St} (h : Keys P X I s) (i : IfId) {id : Bytes} (hid : I id) {k : PKey} (hk : P k) (q : UInt16)
    (m : Nat) : Tame P X I s (reallySend c s i id k q m) := by
  unfold reallySend
  split
  · exact .refl h
  · split
    · exact .refl h
    · split
      · exact .refl h
      · simp only
        split
        · exact .refl h
        · split
          · exact .refl h
          · exact tame_emit h _ ⟨hk, hid, Nat.min_le_right ..⟩

variable (R : Rules c P X I)
include R

theorem tame_flushRt {s : St} (h : Keys P X I s) (i : IfId) {r : Route} (hr : P r.key ∧ I r.id) :
    Tame P X I s (flushRt c s i r).1 := by
  unfold flushRt
  simp only
  have h1 : Tame P X I s (if routeMetric r < INFINITY then satisfyRequest s r.key r.seqno r.id (some i) else s) := by
    split
    · exact tame_satisfy h ..
    · exact .refl h
  split
  · exact h1
  · have h2 := h1.trans (tame_really (c := c) h1.keys i hr.2 hr.1 r.seqno (routeMetric r))
    exact h2.trans (tame_modSource h2.keys ..)

theorem tame_flushOne {s : St} (h : Keys P X I s) (i : IfId) {k : PKey} (hk : P k) : Tame P X I s (flushOne c s i k).1 := by
  unfold flushOne
  split
  · next x hx =>
    have hm : x ∈ s.xroutes := by
      unfold preferredXroute findXroute at hx
      split at hx
      · exact absurd hx (by simp)
      · next y hy =>
        split at hx
        · cases hx; exact List.mem_of_find?_eq_some hy
        · exact absurd hx (by simp)
    exact tame_really h i R.own (R.sub _ (h.xroutes x hm)) ..
  · split
    · next r hr => exact tame_flushRt R h i (h.installed hr)
    · exact tame_really h i R.own hk ..

theorem tame_flushLoop (i : IfId) (l : List PKey) (last : Option PKey) {s : St} (h : Keys P X I s) (hl : ∀ k ∈ l, P k) :
    Tame P X I s (flushLoop c i l last s) := by
  induction l generalizing last s with
  | nil => exact .refl h
  | cons k l ih =>
    unfold flushLoop
    split
    · exact ih last h fun k hk => hl k (List.mem_cons_of_mem _ hk)
    · have h1 := tame_flushOne R h i (hl k (List.mem_cons_self ..))
      exact h1.trans (ih _ h1.keys fun k hk => hl k (List.mem_cons_of_mem _ hk))

omit R in
theorem sortBy_in {α : Type} (cmp : α → α → Ordering) (l : List α) (x : α) (h : x ∈ sortBy cmp l) : x ∈ l := by
  have ins : ∀ (y : α) (l : List α), x ∈ insertBy cmp y l → x = y ∨ x ∈ l := by
    intro y l
    induction l with
    | nil => intro h; exact .inl (List.mem_singleton.1 h)
    | cons z l ih =>
      intro h
      unfold insertBy at h
      split at h
      · rcases List.mem_cons.1 h with e | h
        · exact .inr (e ▸ List.mem_cons_self ..)
        · rcases ih h with e | h
          · exact .inl e
          · exact .inr (List.mem_cons_of_mem _ h)
      · rcases List.mem_cons.1 h with e | h
        · exact .inl e
        · exact .inr h
  induction l with
  | nil => exact h
  | cons y l ih =>
    rcases ins y _ h with e | h
    · exact e ▸ List.mem_cons_self ..
    · exact List.mem_cons_of_mem _ (ih h)

theorem tame_flushUpdates {s : St} (h : Keys P X I s) (i : IfId) : Tame P X I s (flushUpdates c s i) := by
  unfold flushUpdates
  split
  · exact .refl h
  · next ifp hi =>
    simp only
    have hm : ifp ∈ s.ifaces := List.mem_of_find?_eq_some hi
    have h0 : Tame P X I s (modIf s i (fun x => { x with queue := [], queueCap := 0 })) :=
      tame_modIf h i _ (fun _ _ _ _ hk => absurd hk List.not_mem_nil) fun _ => rfl
    have h1 : Tame P X I s (if ifp.queue.isEmpty = true then s else
        if (!ifp.up) = true then modIf s i (fun x => { x with queue := [], queueCap := 0 })
        else flushLoop c i ((sortBy compareBuffered (ifp.queue.map fun k => (queuedId c s k, k))).map (·.2)) none
          (modIf s i (fun x => { x with queue := [], queueCap := 0 }))) := by
      split
      · exact .refl h
      · split
        · exact h0
        · refine h0.trans (tame_flushLoop R i _ none h0.keys fun k hk => ?_)
          obtain ⟨p, hp, e⟩ := List.mem_map.1 hk
          obtain ⟨k', hk', e'⟩ := List.mem_map.1 (sortBy_in _ _ _ hp)
          subst e' e
          exact h.queue ifp hm _ hk'
    exact h1.trans (tame_modIf h1.keys i _ (fun _ _ hq => hq) fun _ => rfl)

omit R in
theorem tame_schedule {s : St} (h : Keys P X I s) (i : IfId) (u : Bool) : Tame P X I s (scheduleUpdateFlush s i u) := by
  unfold scheduleUpdateFlush
  split
  · exact .refl h
  · simp only [popRand]
    refine iteInduction (motive := fun x => Tame P X I s x) (fun _ => tame_rand h _) fun _ => ?_
    have h1 : Tame P X I s { s with rand := fun j => s.rand (j + 1 + 1) } := tame_rand h _
    exact h1.trans (tame_modIf h1.keys i _ (fun _ _ hq => hq) fun _ => rfl)

theorem tame_bufferUpdate {s : St} (h : Keys P X I s) (i : IfId) {k : PKey} (hk : P k) : Tame P X I s (bufferUpdate c s i k) := by
  unfold bufferUpdate
  split
  · exact .refl h
  · next ifp hi =>
    simp only
    have h1 : Tame P X I s (if ifp.queue.length > 0 ∧ ifp.queue.length ≥ ifp.queueCap then flushUpdates c s i else s) := by
      split
      · exact tame_flushUpdates R h i
      · exact .refl h
    refine h1.trans (tame_modIf h1.keys i _ (fun x _ hq k' hk' => ?_) fun _ => rfl)
    rcases List.mem_append.1 hk' with hk' | hk'
    · exact hq k' hk'
    · rw [List.mem_singleton.1 hk']; exact hk

theorem tame_sendUpdateIf {s : St} (h : Keys P X I s) (i : IfId) (u : Bool) {k : PKey} (hk : P k) :
    Tame P X I s (sendUpdateIf c s i u k) := by
  unfold sendUpdateIf
  split
  · exact .refl h
  · have h1 := tame_bufferUpdate R h i hk
    exact h1.trans (tame_schedule h1.keys i u)

theorem tame_sendUpdate {s : St} (h : Keys P X I s) (u : Bool) {k : PKey} (hk : P k) :
    Tame P X I s (sendUpdate c s u k) := by
  unfold sendUpdate
  simp only
  have h1 : Tame P X I s ((allIfs s).foldl (fun s i => sendUpdateIf c s i u k) s) :=
    .foldl _ _ h fun i _ s h => tame_sendUpdateIf R h i u hk
  split
  · exact h1
  · split
    · split
      · exact h1.trans (tame_satisfy h1.keys ..)
      · exact h1
    · exact h1

theorem tame_sendSelf {s : St} (h : Keys P X I s) (i : IfId) : Tame P X I s (sendSelfUpdate c s i) :=
  .foldl _ _ h fun x hx s' h' => tame_sendUpdateIf R h' i false (R.sub _ (h.xroutes x hx))

theorem tame_sendWild {s : St} (h : Keys P X I s) (i : IfId) (u ss : Bool) : Tame P X I s (sendUpdateWild c s i u ss) := by
  unfold sendUpdateWild
  split
  · exact .refl h
  · simp only [popRand]
    have h1 := tame_sendSelf R h i
    have h2 : Tame P X I (sendSelfUpdate c s i) ((installedKeys (sendSelfUpdate c s i)).foldl
        (fun s k => if (k.isSS == ss) = true then bufferUpdate c s i k else s) (sendSelfUpdate c s i)) := by
      refine .foldl _ _ h1.keys fun k hk s' h' => ?_
      obtain ⟨r, hr, e⟩ := List.mem_map.1 hk
      have hp := (h1.keys.routes r (List.mem_filter.1 hr).1).1
      rw [e] at hp
      split
      · exact tame_bufferUpdate R h' i hp
      · exact .refl h'
    have h3 := h1.trans h2
    obtain ⟨S, hS⟩ : ∃ S, S = (installedKeys (sendSelfUpdate c s i)).foldl
        (fun s k => if (k.isSS == ss) = true then bufferUpdate c s i k else s) (sendSelfUpdate c s i) := ⟨_, rfl⟩
    rw [← hS] at h3 ⊢
    have h4 : Tame P X I s { S with rand := fun j => S.rand (j + 1) } := h3.trans (tame_rand h3.keys _)
    refine (h4.trans (tame_modIf h4.keys i _ ?_ ?_)).trans (tame_schedule (tame_modIf h4.keys i _ ?_ ?_).keys i u)
    all_goals first | exact fun _ _ hq => hq | exact fun _ => rfl

theorem tame_sendAny {s : St} (h : Keys P X I s) (i : IfId) (u : Bool) : Tame P X I s (sendUpdateAny c s i u) := by
  unfold sendUpdateAny
  split
  · exact .refl h
  · have h1 := tame_sendWild R h i u false
    have h2 := h1.trans (tame_sendWild R h1.keys i u true)
    exact h2.trans (tame_schedule h2.keys i u)

theorem tame_sendUpdateResend {s : St} (h : Keys P X I s) {k : PKey} (hk : P k) : Tame P X I s (sendUpdateResend c s k) := by
  have h1 := tame_sendUpdate R h true hk
  exact h1.trans (tame_record h1.keys .update hk _ _ nofun _ _)

omit R in
theorem tame_sendRequest {s : St} (h : Keys P X I s) (i : IfId) (to : Option NeighId) {k : Option PKey}
    (hk : ∀ k', k = some k' → P k') : Tame P X I s (sendRequest s i to k) := by
  unfold sendRequest
  split
  · exact tame_emit h _ nofun
  · split
    · exact .refl h
    · exact tame_emit h _ hk

theorem tame_mcRequestIf {s : St} (h : Keys P X I s) (i : IfId) {k : Option PKey} (hk : ∀ k', k = some k' → P k') :
    Tame P X I s (sendMulticastRequestIf c s i k) := by
  unfold sendMulticastRequestIf
  split
  · exact .refl h
  · have h1 := tame_flushUpdates R h i
    exact h1.trans (tame_sendRequest h1.keys i none hk)

theorem tame_mcRequest {s : St} (h : Keys P X I s) {k : Option PKey} (hk : ∀ k', k = some k' → P k') :
    Tame P X I s (sendMulticastRequest c s k) :=
  .foldl _ _ h fun i _ s' h' => tame_mcRequestIf R h' i hk

theorem tame_ucRequest {s : St} (h : Keys P X I s) (n : NeighId) {k : PKey} (hk : P k) :
    Tame P X I s (sendUnicastRequest c s n k) := by
  unfold sendUnicastRequest
  split
  · exact .refl h
  · have h1 := tame_flushUpdates R h (c.ifOf n)
    exact h1.trans (tame_sendRequest h1.keys _ _ fun k' e => by cases e; exact hk)

omit R in
theorem tame_sendMh {s : St} (h : Keys P X I s) (i : IfId) (to : Option NeighId) {k : PKey} (hk : P k) (q : UInt16)
    {id : Bytes} (hid : I id) {hop : Nat} (hh : hop < 256) : Tame P X I s (sendMh s i to k q id hop) := by
  unfold sendMh
  split
  · exact .refl h
  · exact tame_emit h _ ⟨hk, hid, hh⟩

theorem tame_mcMhIf {s : St} (h : Keys P X I s) (i : IfId) {k : PKey} (hk : P k) (q : UInt16)
    {id : Bytes} (hid : I id) {hop : Nat} (hh : hop < 256) : Tame P X I s (sendMulticastMhIf c s i k q id hop) := by
  unfold sendMulticastMhIf
  have h1 := tame_flushUpdates R h i
  simp only
  split
  · exact h1
  · exact h1.trans (tame_sendMh h1.keys i none hk q hid hh)

theorem tame_mcMh {s : St} (h : Keys P X I s) (i : Option IfId) {k : PKey} (hk : P k) (q : UInt16)
    {id : Bytes} (hid : I id) {hop : Nat} (hh : hop < 256) : Tame P X I s (sendMulticastMh c s i k q id hop) := by
  unfold sendMulticastMh
  split
  · exact tame_mcMhIf R h _ hk q hid hh
  · refine .foldl _ _ h fun i _ s' h' => ?_
    split
    · exact tame_mcMhIf R h' _ hk q hid hh
    · exact .refl h'

theorem tame_ucMh {s : St} (h : Keys P X I s) (n : NeighId) {k : PKey} (hk : P k) (q : UInt16)
    {id : Bytes} (hid : I id) {hop : Nat} (hh : hop < 256) : Tame P X I s (sendUnicastMh c s n k q id hop) := by
  unfold sendUnicastMh
  have h1 := tame_flushUpdates R h (c.ifOf n)
  exact h1.trans (tame_sendMh h1.keys _ _ hk q hid hh)

theorem tame_doResendOne {s : St} (h : Keys P X I s) (j : Nat) : Tame P X I s (doResendOne c s j) := by
  unfold doResendOne
  split
  · exact .refl h
  · next r hr =>
    have hr' := h.resends r (List.mem_of_getElem? hr)
    split
    · simp only
      have h1 : Tame P X I s (match r.kind with
        | .request => sendMulticastMh c s r.ifp r.key r.seqno r.id 127
        | .update => sendUpdateOpt c s r.ifp r.key) := by
        split
        · next e => exact tame_mcMh R h _ hr'.1 _ (hr'.2 e) (by decide)
        · unfold sendUpdateOpt
          split
          · exact tame_sendUpdate R h true hr'.1
          · exact tame_sendUpdateIf R h _ true hr'.1
      refine h1.trans (tame_resends h1.keys _ fun x hx => ?_)
      obtain ⟨m, hm, e⟩ := List.mem_iff_getElem.1 hx
      rw [List.getElem_modify] at e
      have hb := h1.keys.resends _ (List.getElem_mem (by rw [List.length_modify] at hm; exact hm))
      split at e
      · rw [← e]; exact hb
      · rw [← e]; exact hb
    · exact .refl h

theorem tame_doResend {s : St} (h : Keys P X I s) : Tame P X I s (doResend c s) := by
  have h1 : Tame P X I s ((List.range s.resends.length).foldl (doResendOne c) s) :=
    .foldl _ _ h fun j _ s' h' => tame_doResendOne R h' j
  exact h1.trans (tame_recompute h1.keys)

end
end Babel
