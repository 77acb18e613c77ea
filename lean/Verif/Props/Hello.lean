import Verif.Lemmas.Hello4
import Verif.Props.Unicast
/-
C70: hellos and IHUs.
-/
set_option linter.unusedVariables false
namespace Babel
open Spec

/-- All that happens is something that can happen to the daemon of C63–C69, where hellos and IHUs are arbitrary; nothing fails. -/
theorem C70_refines {e : DCfg} {t : Talk} {X : PKey → Prop} (he : DCfgOk e) (hd : DStart t.d) (hA : ∀ n, (e.addr n).length = 16)
    (hX : ∀ a b, X a → X b → Proper ⟨a.prefix_, b.plen, b.srcPrefix, a.srcPlen⟩) {evs : List TEv} (hev : ∀ ev ∈ evs, TEvOk e X ev) :
    ∃ t' devs, trun e t evs = some t' ∧ drun e t.d devs = some t'.d ∧ ∀ ev ∈ devs, DEvOk e Proper X SndOk ev := by
  obtain ⟨t', e1, r⟩ := trun_did he hX hA (S := fun _ => False) evs (talk_start hd) hev nofun
  obtain ⟨l, r1, r2⟩ := r.devs
  exact ⟨t', l, e1, r1, r2⟩

/-- The hellos read on an interface that does not go down have consecutive numbers, modulo 65536, and their intervals are 0 (unscheduled), the
configured one, or 10 at the end. -/
theorem C70_numbered {e : DCfg} {t : Talk} {X : PKey → Prop} (he : DCfgOk e) (hd : DStart t.d) (hA : ∀ n, (e.addr n).length = 16)
    (hX : ∀ a b, X a → X b → Proper ⟨a.prefix_, b.plen, b.srcPrefix, a.srcPlen⟩) {evs : List TEv} (hev : ∀ ev ∈ evs, TEvOk e X ev)
    {i : IfId} (hi : ∀ ev ∈ evs, Staying i ev) {t' : Talk} (hr : trun e t evs = some t') :
    ∃ vs : List Nat, (∀ v ∈ vs, v = 0 ∨ v = helloCs t i ∨ v = 10) ∧ t'.seq i = t.seq i + UInt16.ofNat vs.length ∧
      ∀ E : PEnv, linklocal E.sender = true → hellosOn E (t'.d.link i) 0 = numbered false (t.seq i) vs := by
  obtain ⟨t1, e1, r⟩ := trun_did he hX hA (S := fun x => x = i) evs (talk_start hd) hev (fun x hx ev hev => by subst hx; exact hi ev hev)
  rw [hr] at e1
  cases e1
  obtain ⟨vs, h1, h2, h3⟩ := r.greets i rfl
  exact ⟨vs, h1, h2, fun E hE => by rw [h3 E hE, start_hellos hd hE]; rfl⟩

/-- The hellos sent to one neighbour are unscheduled, and numbered from 1. -/
theorem C70_unicast {e : DCfg} {t : Talk} {X : PKey → Prop} (he : DCfgOk e) (hd : DStart t.d) (hA : ∀ n, (e.addr n).length = 16)
    (hX : ∀ a b, X a → X b → Proper ⟨a.prefix_, b.plen, b.srcPrefix, a.srcPlen⟩) {evs : List TEv} (hev : ∀ ev ∈ evs, TEvOk e X ev)
    {t' : Talk} (hr : trun e t evs = some t') {n : NeighId} {x : DNbr} (hx : t'.d.nbr n = some x) :
    ∃ k, t'.useq n = UInt16.ofNat k ∧ ∀ E : PEnv, linklocal E.sender = true →
      hellosOn E (t'.d.link (e.node.ifOf n)) x.buf = numbered true 0 (List.replicate k 0) := by
  obtain ⟨t1, e1, r⟩ := trun_did he hX hA (S := fun _ => False) evs (talk_start hd) hev nofun
  rw [hr] at e1
  cases e1
  refine r.unis (fun m j hm => ?_) n x.buf (mem_shape hx)
  unfold shape at hm
  rw [hd.nbrs] at hm
  cases hm

/-- A scheduled hello has the next number and the configured interval; unscheduled ones may follow, if there are timestamps.  Neighbours on
the interface get one IHU each, with the cost of receiving from them: all of them if the number is a multiple of 3, otherwise those
with a cost of at least 384 and those one of whose last four hellos was missed. -/
theorem C70_hello {e : DCfg} {t : Talk} {X : PKey → Prop} (he : DCfgOk e) (hd : DStart t.d) (hA : ∀ n, (e.addr n).length = 16)
    (hX : ∀ a b, X a → X b → Proper ⟨a.prefix_, b.plen, b.srcPrefix, a.srcPlen⟩) {evs : List TEv} (hev : ∀ ev ∈ evs, TEvOk e X ev)
    {i : IfId} (hi : ∀ ev ∈ evs, Staying i ev) {t1 : Talk} (hr : trun e t evs = some t1) (hup : ifUp t1.d.st i = true) (hms : 0 < helloMs t1.d i) :
    ∃ (t2 : Talk) (k : Nat) (js : List (NeighId × DNbr × Nat)), tstep e t1 (.hello i) = some t2 ∧
      (∀ E : PEnv, linklocal E.sender = true →
        hellosOn E (t2.d.link i) 0 = hellosOn E (t1.d.link i) 0 ++ numbered false (t1.seq i) (helloCs t1 i :: List.replicate k 0)) ∧
      ((e.ifs i).timestamps = false → k = 0) ∧
      (js.map (·.1)).Nodup ∧
      (∀ n x, (∃ j, (n, x, j) ∈ js) ↔ t1.d.nbr n = some x ∧ e.node.ifOf n = i ∧
        ((t1.seq i + 1) % 3 = 0 ∨ 384 ≤ x.link.txcost ∨ x.link.hello.reach &&& 0xF000 ≠ 0xF000)) ∧
      (∀ p ∈ js, p.2.2 = 0 ∨ p.2.2 = p.2.1.buf) ∧ Tells e (fun x => x = i) t1.d t2.d js := by
  obtain ⟨t', e1, r⟩ := trun_did he hX hA (S := fun x => x = i) evs (talk_start hd) hev (fun x hx ev hev => by subst hx; exact hi ev hev)
  rw [hr] at e1
  cases e1
  obtain ⟨t2, b, e2, c, g, u, ⟨js, j1, j2, tl⟩, _, _, hb⟩ := hello_did he hX hA r.inv hup
  have hb := hb hms
  subst hb
  obtain ⟨vs, ⟨k, rfl, hk, _⟩, hs, hh⟩ := g i rfl
  rw [if_pos ⟨rfl, rfl⟩] at hh
  have hnd := nbrs_nodup r.inv.housed
  have hsq : bump t1.seq true i i = t1.seq i + 1 := by simp [bump]
  rw [hsq] at j1
  refine ⟨t2, k, js, e2, hh, fun hT => (hk rfl).resolve_left (by rw [hT]; nofun), ?_, fun n x => ?_, j2, tl⟩
  · have : js.map (·.1) = (addressees e t1.d i ((t1.seq i + 1) % 3 == 0)).map (·.1) := by
      rw [← j1, List.map_map]
      rfl
    rw [this]
    exact hnd.sublist (List.filter_sublist.map _)
  · have hmem : (∃ j, (n, x, j) ∈ js) ↔ (n, x) ∈ addressees e t1.d i ((t1.seq i + 1) % 3 == 0) := by
      rw [← j1]
      constructor
      · rintro ⟨j, hj⟩
        exact List.mem_map.2 ⟨_, hj, rfl⟩
      · intro h
        obtain ⟨⟨n', x', j⟩, hj, hp⟩ := List.mem_map.1 h
        cases hp
        exact ⟨j, hj⟩
    rw [hmem]
    unfold addressees
    rw [List.mem_filter]
    have hx : (n, x) ∈ t1.d.nbrs ↔ t1.d.nbr n = some x := ⟨fun h => nbr_of_mem hnd h, nbr_mem⟩
    rw [hx]
    simp [marginal]

/-- The answer to a request for everything begins with one IHU, to the neighbour who asks. -/
theorem C70_ihu {e : DCfg} {t : Talk} {X : PKey → Prop} (he : DCfgOk e) (hd : DStart t.d) (hA : ∀ n, (e.addr n).length = 16)
    (hX : ∀ a b, X a → X b → Proper ⟨a.prefix_, b.plen, b.srcPrefix, a.srcPlen⟩) {evs : List TEv} (hev : ∀ ev ∈ evs, TEvOk e X ev)
    {n : NeighId} {x : DNbr} (hi : ∀ ev ∈ evs, Staying (e.node.ifOf n) ev) {t1 : Talk} (hr : trun e t evs = some t1) (hx : t1.d.nbr n = some x)
    (hup : ifUp t1.d.st (e.node.ifOf n) = true) :
    ∃ t2 j, tstep e t1 (.ihu n) = some t2 ∧ (j = 0 ∨ j = x.buf) ∧ Tells e (fun y => y = e.node.ifOf n) t1.d t2.d [(n, x, j)] := by
  obtain ⟨t', e1, r⟩ := trun_did he hX hA (S := fun x => x = e.node.ifOf n) evs (talk_start hd) hev (fun x hx ev hev => by subst hx; exact hi ev hev)
  rw [hr] at e1
  cases e1
  obtain ⟨t2, e2, _, _, _, _, _, js, j1, j2, tl⟩ := ihus_did he hX hA (i := e.node.ifOf n) [(n, x)] r.inv hup (fun p hp => by
    rw [List.mem_singleton] at hp
    subst hp
    exact ⟨rfl, hx⟩)
  have e2 : (t1.sendIhu e n >>= fun t => some t) = some t2 := e2
  obtain ⟨⟨n', x', j⟩, js', rfl, hp, hq⟩ := List.map_eq_cons_iff.1 j1
  obtain rfl := List.map_eq_nil_iff.1 hq
  have hp1 : n' = n := (Prod.mk.inj hp).1
  have hp2 : x' = x := (Prod.mk.inj hp).2
  rw [hp1, hp2] at j2 tl
  refine ⟨t2, j, ?_, j2 _ (List.mem_cons_self ..), tl⟩
  show t1.sendIhu e n = some t2
  cases h5 : t1.sendIhu e n with
  | none => rw [h5] at e2; cases e2
  | some y => rw [h5] at e2; exact e2

/-! ### How often -/

theorem tells_informed {e : DCfg} {d d' : Daemon} {js : List (NeighId × DNbr × Nat)} {n : NeighId} {x : DNbr} {j : Nat}
    (h : Tells e (fun y => y = e.node.ifOf n) d d' js) (hm : (n, x, j) ∈ js) (hj : j = 0 ∨ j = x.buf) : Informed e d d' n x := by
  refine ⟨j, hj, fun E hE ho => ?_⟩
  rw [h E hE _ j (.inr rfl), List.length_append, List.length_map]
  have hf : (n, x, j) ∈ js.filter fun p => e.node.ifOf p.1 == e.node.ifOf n && p.2.2 == j && E.isOurs (e.addr p.1) :=
    List.mem_filter.2 ⟨hm, by simp [ho]⟩
  have := List.length_pos_of_mem hf
  omega

/-- Without timestamps, only the hellos of an interface change their number. -/
theorem quiet_seq {e : DCfg} {X : PKey → Prop} {s0 : St} {S : IfId → Prop} (he : DCfgOk e)
    (hX : ∀ a b, X a → X b → Proper ⟨a.prefix_, b.plen, b.srcPrefix, a.srcPlen⟩) (hA : ∀ n, (e.addr n).length = 16) {i : IfId}
    (hT : (e.ifs i).timestamps = false) (evs : List TEv) : ∀ {t t' : Talk}, TInv e X s0 S t.d → (∀ ev ∈ evs, TEvOk e X ev) →
    (∀ i, S i → ∀ ev ∈ evs, Staying i ev) → (∀ ev ∈ evs, ev ≠ .hello i ∧ ev ≠ .last i) → trun e t evs = some t' → t'.seq i = t.seq i := by
  induction evs with
  | nil => intro t t' _ _ _ _ h; cases h; rfl
  | cons ev l ih =>
    intro t t' h hev hs hn hr
    obtain ⟨t1, e1, r1⟩ := tstep_did he hX hA h (hev ev (List.mem_cons_self ..)) fun i hi => hs i hi ev (List.mem_cons_self ..)
    unfold trun at hr
    rw [List.foldlM_cons, e1] at hr
    have hr : trun e t1 l = some t' := hr
    rw [ih r1.inv (fun x hx => hev x (List.mem_cons_of_mem _ hx)) (fun i hi x hx => hs i hi x (List.mem_cons_of_mem _ hx))
      (fun x hx => hn x (List.mem_cons_of_mem _ hx)) hr]
    obtain ⟨n1, n2⟩ := hn ev (List.mem_cons_self ..)
    have hne : ∀ (b : Bool) (y : IfId), y ≠ i → bump t.seq b y i = t.seq i := fun b y hy => by
      simp only [bump]
      rw [if_neg fun h => hy h.2.symm]
    cases ev with
    | ev x =>
      by_cases ho : isOther x = true
      · have e1 : (if isOther x = true then _ else _ : Option Talk) = some t1 := e1
        rw [if_pos ho] at e1
        obtain ⟨d', _, e1⟩ := Option.bind_eq_some_iff.1 e1
        cases e1
        rfl
      · have e1 : (if isOther x = true then _ else _ : Option Talk) = some t1 := e1
        rw [if_neg ho] at e1
        cases e1
        rfl
    | hello y =>
      have hy : y ≠ i := fun h => n1 (by rw [h])
      by_cases hup : ifUp t.d.st y = false
      · have := hello_down he hX hA h hup
        have e1 : t.hello e y = some t1 := e1
        rw [this] at e1
        cases e1
        rfl
      · obtain ⟨t2, b, e2, _, _, _, _, hq, _⟩ := hello_did he hX hA h (i := y) (by simpa using hup)
        have e1 : t.hello e y = some t1 := e1
        rw [e2] at e1
        cases e1
        exact hq i fun h => hy h.symm
    | last y =>
      have hy : y ≠ i := fun h => n2 (by rw [h])
      obtain ⟨d1, b, e2, _⟩ := multicast_did he hX h y 10 true
      have e1 : t.multicastHello e y 10 true = some t1 := e1
      rw [e2] at e1
      cases e1
      exact hne b y hy
    | ihu n =>
      have e1 : t.sendIhu e n = some t1 := e1
      by_cases hup : ifUp t.d.st (e.node.ifOf n) = false
      · rw [ihu_down hup] at e1
        cases e1
        rfl
      · cases hx : t.d.nbr n with
        | none =>
          unfold Talk.sendIhu at e1
          rw [hx] at e1
          cases e1
          rfl
        | some x =>
          obtain ⟨d', b, one, e2, _, ht⟩ := sendIhu_did he hX hA h hx (by simpa using hup)
          rw [e2] at e1
          cases e1
          by_cases hy : e.node.ifOf n = i
          · have hb : b = false := by
              cases b with
              | false => rfl
              | true => rw [hy, hT] at ht; exact absurd (ht rfl) Bool.false_ne_true
            rw [hb]
            show bump t.seq (false && !one) (e.node.ifOf n) i = _
            rw [Bool.false_and, bump_false]
          · exact hne _ _ hy

theorem one_third (q : UInt16) : (q + 1) % 3 = 0 ∨ (q + 1 + 1) % 3 = 0 ∨ (q + 1 + 1 + 1) % 3 = 0 := by
  have h1 : ∀ x : UInt16, x % 3 = 0 ↔ x.toNat % 3 = 0 := fun x => by
    rw [← UInt16.toNat_inj]
    simp
  rw [h1, h1, h1]
  simp only [UInt16.toNat_add, UInt16.toNat_one]
  have := q.toNat_lt
  by_cases h : q.toNat + 3 < 65536
  · rw [Nat.mod_eq_of_lt (show q.toNat + 1 < 2 ^ 16 by omega), Nat.mod_eq_of_lt (show q.toNat + 1 + 1 < 2 ^ 16 by omega),
      Nat.mod_eq_of_lt (show q.toNat + 1 + 1 + 1 < 2 ^ 16 by omega)]
    omega
  · have h : q.toNat = 65533 ∨ q.toNat = 65534 ∨ q.toNat = 65535 := by omega
    rcases h with h | h | h <;> rw [h] <;> decide

/-- On an interface without timestamps that stays up, of three consecutive scheduled hellos one comes with an IHU to a neighbour known throughout. -/
theorem C70_third {e : DCfg} {t : Talk} {X : PKey → Prop} (he : DCfgOk e) (hd : DStart t.d) (hA : ∀ n, (e.addr n).length = 16)
    (hX : ∀ a b, X a → X b → Proper ⟨a.prefix_, b.plen, b.srcPrefix, a.srcPlen⟩) {n : NeighId} {evs mid mid' : List TEv}
    (hev : ∀ ev ∈ evs ++ mid ++ mid', TEvOk e X ev) (hi : ∀ ev ∈ evs ++ mid ++ mid', Staying (e.node.ifOf n) ev)
    (hm : ∀ ev ∈ mid ++ mid', ev ≠ .hello (e.node.ifOf n) ∧ ev ≠ .last (e.node.ifOf n))
    (hT : (e.ifs (e.node.ifOf n)).timestamps = false)
    {t1 t2 t3 t4 t5 t6 : Talk} (h1 : trun e t evs = some t1) (h2 : tstep e t1 (.hello (e.node.ifOf n)) = some t2) (h3 : trun e t2 mid = some t3)
    (h4 : tstep e t3 (.hello (e.node.ifOf n)) = some t4) (h5 : trun e t4 mid' = some t5) (h6 : tstep e t5 (.hello (e.node.ifOf n)) = some t6)
    (hup : ∀ s ∈ [t1, t3, t5], ifUp s.d.st (e.node.ifOf n) = true ∧ 0 < helloMs s.d (e.node.ifOf n))
    {x1 x3 x5 : DNbr} (k1 : t1.d.nbr n = some x1) (k3 : t3.d.nbr n = some x3) (k5 : t5.d.nbr n = some x5) :
    Informed e t1.d t2.d n x1 ∨ Informed e t3.d t4.d n x3 ∨ Informed e t5.d t6.d n x5 := by
  have hS : ∀ (l : List TEv), (∀ ev ∈ l, ev ∈ evs ++ mid ++ mid') → ∀ x, x = e.node.ifOf n → ∀ ev ∈ l, Staying x ev := fun l hl x hx ev hev => by
    subst hx
    exact hi ev (hl ev hev)
  have hstep : ∀ {s s' : Talk} {x : DNbr}, TInv e X t.d.st (fun y => y = e.node.ifOf n) s.d → tstep e s (.hello (e.node.ifOf n)) = some s' →
      ifUp s.d.st (e.node.ifOf n) = true ∧ 0 < helloMs s.d (e.node.ifOf n) → s.d.nbr n = some x →
      TInv e X t.d.st (fun y => y = e.node.ifOf n) s'.d ∧ s'.seq (e.node.ifOf n) = s.seq (e.node.ifOf n) + 1 ∧
        ((s.seq (e.node.ifOf n) + 1) % 3 = 0 → Informed e s.d s'.d n x) := by
    intro s s' x h hk hu hx
    obtain ⟨t2, b, e2, ⟨w, c⟩, _, _, ⟨js, j1, j2, tl⟩, _, hz, hb⟩ := hello_did he hX hA h hu.1
    have hk : s.hello e (e.node.ifOf n) = some s' := hk
    rw [e2] at hk
    cases hk
    have hb := hb hu.2
    subst hb
    refine ⟨c.inv, by rw [hz hT]; simp [bump], fun hq => ?_⟩
    have hmem : (n, x) ∈ js.map (fun p => (p.1, p.2.1)) := by
      rw [j1]
      refine List.mem_filter.2 ⟨nbr_mem hx, ?_⟩
      have : bump s.seq true (e.node.ifOf n) (e.node.ifOf n) = s.seq (e.node.ifOf n) + 1 := by simp [bump]
      rw [this]
      simp [hq]
    obtain ⟨⟨n', x', j⟩, hj, hp⟩ := List.mem_map.1 hmem
    cases hp
    exact tells_informed tl hj (j2 _ hj)
  obtain ⟨t', e1, r1⟩ := trun_did he hX hA evs (talk_start hd) (fun ev h => hev ev (by simp [h])) (hS evs (fun ev h => by simp [h]))
  rw [h1] at e1
  cases e1
  obtain ⟨i2, q2, f2⟩ := hstep r1.inv h2 (hup t1 (by simp)) k1
  obtain ⟨t3', e3, r3⟩ := trun_did he hX hA mid i2 (fun ev h => hev ev (by simp [h])) (hS mid (fun ev h => by simp [h]))
  rw [h3] at e3
  cases e3
  have q3 := quiet_seq he hX hA hT mid i2 (fun ev h => hev ev (by simp [h])) (hS mid (fun ev h => by simp [h])) (fun ev h => hm ev (by simp [h])) h3
  obtain ⟨i4, q4, f4⟩ := hstep r3.inv h4 (hup t3 (by simp)) k3
  obtain ⟨t5', e5, r5⟩ := trun_did he hX hA mid' i4 (fun ev h => hev ev (by simp [h])) (hS mid' (fun ev h => by simp [h]))
  rw [h5] at e5
  cases e5
  have q5 := quiet_seq he hX hA hT mid' i4 (fun ev h => hev ev (by simp [h])) (hS mid' (fun ev h => by simp [h])) (fun ev h => hm ev (by simp [h])) h5
  obtain ⟨i6, q6, f6⟩ := hstep r5.inv h6 (hup t5 (by simp)) k5
  rw [q3, q2] at f4
  rw [q5, q4, q3, q2] at f6
  rcases one_third (t1.seq (e.node.ifOf n)) with h | h | h
  · exact .inl (f2 h)
  · exact .inr (.inl (f4 h))
  · exact .inr (.inr (f6 h))

/-! ### An interface with timestamps -/

namespace DDemo

/-- Timestamps are sent, and all neighbours are on interface 10. -/
def eTs : DCfg := { e with ifs := fun _ => { dif with timestamps := true }, node := { Demo.cfg with ifOf := fun _ => 10 } }

theorem tsOk : DCfgOk eTs where
  myid := by decide
  nonces := fun _ _ => rfl
  indices := fun _ _ _ h => by cases h; rfl
  penalty := fun _ => (by decide : 0 < 2147483648)
  ipv4 := fun _ x h => by cases h; rfl
  signs := fun _ _ h => by cases h

/-- A hello with a timestamp. -/
def stamped : Bytes := pkt [4, 12, 0, 0, 0, 1, 1, 144, 3, 4, 0, 0, 0, 5]

/-- Four hellos and an IHU with cost 96. -/
def fine : Bytes := pkt ([4, 6, 0, 0, 0, 1, 1, 144] ++ [4, 6, 0, 0, 0, 2, 1, 144] ++ [4, 6, 0, 0, 0, 3, 1, 144] ++ [4, 6, 0, 0, 0, 4, 1, 144] ++
  [5, 14, 3, 0, 0, 96, 4, 176, 0, 0, 0, 0, 0, 0, 0, 1])

/-- A hello with number 4 + `k`. -/
def again (k : Nat) : Bytes := pkt [4, 6, 0, 0, 0, UInt8.ofNat (4 + k), 1, 144]

def talk : Talk := ⟨d, fun _ => 0, fun _ => 0⟩

/-- Neighbour 1 sends timestamps, neighbour 3 has a good link. -/
def meet : List TEv := [.ev (recv stamped), .ev (recv3 fine)]

/-- Four seconds later, a hello is sent; neighbour 1 requests everything twice; neighbour 3 sends a hello. -/
def lap (k : Nat) : List TEv := [.ev (.node (.tick ⟨1000 + 4 * k, 0⟩)), .hello 10, .ev (.say 10 0 .flush), .ihu 1, .ev (.say 10 0 .flush),
  .ihu 1, .ev (.say 10 0 .flush), .ev (recv3 (again k))]

/-- Someone with the address of neighbour `n`. -/
def as (n : NeighId) : PEnv := ⟨Demo.ll 1, fun a => a == eTs.addr n, true⟩

theorem asks_nothing {n : NeighId} {b : Bytes} (hn : (parsePacket (penvOf eTs n) b b.length).all (fun x => x.2.all fun it => match it with
    | .request _ => false
    | .seqnoRequest .. => false
    | _ => true) = true) : Asks Proper (penvOf eTs n) b b.length := by
  intro st items h
  rw [h] at hn
  have hn := List.all_eq_true.1 hn
  exact ⟨fun k hk => absurd (hn _ hk) Bool.false_ne_true, fun _ _ _ _ hk => absurd (hn _ hk) Bool.false_ne_true⟩

theorem meet_ok : ∀ ev ∈ meet, TEvOk eTs (fun _ => False) ev := by
  intro ev hev
  simp only [List.mem_cons, List.not_mem_nil, or_false, meet] at hev
  rcases hev with rfl | rfl
  · exact ⟨by decide +kernel, Nat.le_refl _, .inr (asks_nothing (by decide +kernel))⟩
  · exact ⟨by decide +kernel, Nat.le_refl _, .inr (asks_nothing (by decide +kernel))⟩

theorem lap_ok : ∀ k ∈ [1, 2, 3, 4], ∀ ev ∈ lap k, TEvOk eTs (fun _ => False) ev := by
  have h : ∀ k ∈ [1, 2, 3, 4], 4 ≤ (again k).length ∧ Asks Proper (penvOf eTs 3) (again k) (again k).length := by
    intro k hk
    simp only [List.mem_cons, List.not_mem_nil, or_false] at hk
    rcases hk with rfl | rfl | rfl | rfl <;> exact ⟨by decide +kernel, asks_nothing (by decide +kernel)⟩
  have h1 : ∀ k : Nat, k ∈ [1, 2, 3, 4] → TvOk ⟨1000 + 4 * k, 0⟩ ∧ 0 < micros ⟨1000 + 4 * k, 0⟩ := fun k _ => by
    refine ⟨⟨(by decide : (0 : Int) ≤ 0), (by decide : (0 : Int) < 1000000)⟩, ?_⟩
    unfold micros
    simp only
    omega
  intro k hk ev hev
  simp only [List.mem_cons, List.not_mem_nil, or_false, lap] at hev
  rcases hev with rfl | rfl | rfl | rfl | rfl | rfl | rfl | rfl
  · exact h1 k hk
  all_goals first | trivial | exact ⟨(h k hk).1, Nat.le_refl _, .inr (h k hk).2⟩

/-- What happens: four hellos are sent. -/
def laps : List TEv := meet ++ lap 1 ++ lap 2 ++ lap 3 ++ lap 4

theorem laps_ok : ∀ ev ∈ laps, TEvOk eTs (fun _ => False) ev := by
  intro ev hev
  simp only [laps, List.mem_append] at hev
  rcases hev with (((h | h) | h) | h) | h
  · exact meet_ok ev h
  all_goals exact lap_ok _ (by decide) ev h

end DDemo

/-- The numbers of unscheduled hellos count too.  On an interface with timestamps that stays up, a neighbour of whom every hello was received may get no IHU,
although hellos are sent: here four, but nothing else happens between each two of them. -/
theorem C70_starved : DCfgOk DDemo.eTs ∧ DStart DDemo.talk.d ∧ (∀ ev ∈ DDemo.laps, TEvOk DDemo.eTs (fun _ => False) ev ∧ Staying 10 ev) ∧
    ((DDemo.laps.filter fun ev => match ev with | .hello i => i == 10 | _ => false).length = 4) ∧
    ((trun DDemo.eTs DDemo.talk DDemo.laps).any fun t =>
      (hellosOn (DDemo.as 3) (t.d.link 10) 0 == numbered false 0 [400, 0, 0, 400, 0, 0, 400, 0, 0, 400, 0, 0]) &&
      (ihusOn (DDemo.as 3) (t.d.link 10) 0).isEmpty && (t.d.nbr 3).any (fun x => x.link.hello.reach == 0xFF00 && x.link.txcost == 96 &&
        (ihusOn (DDemo.as 3) (t.d.link 10) x.buf).isEmpty)) = true := by
  refine ⟨DDemo.tsOk, DDemo.start, fun ev hev => ⟨DDemo.laps_ok ev hev, ?_⟩, by decide +kernel, by decide +kernel⟩
  have h : DDemo.laps.all (fun ev => match ev with
      | .ev (.down _) => false
      | .ev (.up _ _ _ _) => false
      | _ => true) = true := by decide +kernel
  have h := List.all_eq_true.1 h ev hev
  unfold Staying
  split
  · cases h
  · cases h
  · trivial

namespace DDemo

/-- Without timestamps: a packet from neighbour 1, and a hello sent every four seconds, three times. -/
def idly (k : Nat) : List TEv := [.ev (.node (.tick ⟨1000 + 4 * k, 0⟩)), .ihu 1, .ev (.say 10 0 .flush)]

/-- What `C70_numbered`, `C70_hello`, `C70_ihu` and `C70_third` assume is met: neighbour 1, of whom every hello was received, gets an IHU with
the last of three hellos, and one whenever it asks. -/
example : (trun e talk (.ev (recv fine) :: idly 1)).any (fun t1 => (tstep e t1 (.hello 10)).any fun t2 => (trun e t2 (idly 2)).any fun t3 =>
    (tstep e t3 (.hello 10)).any fun t4 => (trun e t4 (idly 3)).any fun t5 => (tstep e t5 (.hello 10)).any fun t6 =>
      [t1, t3, t5].all (fun s => ifUp s.d.st 10 && decide (0 < helloMs s.d 10) && (s.d.nbr 1).any (fun x => !marginal x)) &&
      (hellosOn (as 1) (t6.d.link 10) 0 == numbered false 0 [400, 400, 400]) &&
      [t1, t2, t3, t4, t5, t6].map (fun s => (ihusOn (as 1) (s.d.link 10) 0).length) == [1, 1, 2, 2, 3, 4]) = true := by decide +kernel

/-- Everything that can be is sent to one neighbour. -/
def eUni : DCfg := { eTs with ifs := fun _ => { dif with timestamps := true, unicast := true } }

/-- `C70_unicast`: with each IHU to neighbour 1, whose timestamps are sent back, comes a hello. -/
example : (trun eUni talk [.ev (recv stamped), .ihu 1, .ev (.say 10 1 .flush), .ihu 1, .ev (.say 10 1 .flush)]).any (fun t => (t.d.nbr 1).any fun x =>
    hellosOn (as 1) (t.d.link 10) x.buf == numbered true 0 (List.replicate 2 0) && t.useq 1 == 2) = true := by
  decide +kernel

end DDemo

end Babel
