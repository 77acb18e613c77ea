import Verif.Lemmas.Hello4
import Verif.Lemmas.Packet
import Verif.Spec.TwoWay
/-
What neighbours are believed to have said about the link is what they said.
-/
set_option linter.unusedSimpArgs false
set_option linter.unusedVariables false
set_option linter.unusedSectionVars false
namespace Babel
open Spec

/-! ### What is known of neighbours after an event -/

section
variable {e : DCfg}

theorem measured_kept {P : Nbr → Prop} (hr : ∀ now i l rtt, P l → P (l.addRtt now i rtt).1) {now : Timeval} {i : LinkCfg} {p : PState} {x : DNbr}
    (h : P x.link) : P (measured now i p x).link := by
  unfold measured
  split
  · split
    · exact hr _ _ _ _ h
    · exact h
  · exact h

theorem noted_all {P : Nbr → Prop} {now : Timeval} : ∀ (l : List Item) {x : DNbr}, P x.link →
    (∀ it ∈ l, ∀ x : DNbr, P x.link → P (noted now x it).link) → P (l.foldl (noted now) x).link := by
  intro l
  induction l with
  | nil => intro x h _; exact h
  | cons it l ih =>
    intro x h hn
    exact ih (hn it (List.mem_cons_self ..) x h) fun y hy => hn y (List.mem_cons_of_mem _ hy)

theorem packet_nbrs (hc : DCfgOk e) {n : NeighId} {d d' : Daemon} {buf dst : Bytes} {len : Nat} (hs : Sane d.st) (hl : len ≤ buf.length)
    (h : d.packet e n buf len dst = some d') {P : NeighId → Nbr → Prop} (hP : ∀ m x, d.nbr m = some x → P m x.link)
    (hf : ∀ now, P n (Nbr.fresh now)) (hr : ∀ now i l rtt, P n l → P n (l.addRtt now i rtt).1)
    (hi : ∀ d1 eff, ifUp d.st (e.node.ifOf n) = true → d.accept e n buf len dst = some (d1, eff) → ∀ it ∈ eff.items, ∀ x : DNbr, P n x.link → P n (noted d.st.now x it).link) :
    ∀ m x, d'.nbr m = some x → P m x.link := by
  unfold Daemon.packet at h
  by_cases hup : ifUp d.st (e.node.ifOf n) = true
  rotate_left
  · rw [if_neg hup] at h
    cases h
    exact hP
  rw [if_pos hup] at h
  simp only [Option.bind_eq_bind] at h
  obtain ⟨⟨d1, eff0⟩, ha, h⟩ := Option.bind_eq_some_iff.1 h
  have hi := hi _ _ hup ha
  obtain ⟨d2, hit, h⟩ := Option.bind_eq_some_iff.1 h
  unfold Daemon.accept at ha
  simp only [Option.bind_eq_bind] at ha
  obtain ⟨⟨a, eff⟩, hrc, ha⟩ := Option.bind_eq_some_iff.1 ha
  obtain ⟨d0, hch, ha⟩ := Option.bind_eq_some_iff.1 ha
  cases ha
  obtain ⟨l, hl0⟩ := onlyLinks_foldlM (fun _ _ _ h => challenge_only h) _ hch
  have hE : ∀ m x, (Daemon.ensureNbr e { d with auth := fun x => if x = e.node.ifOf n then a else d.auth x } n).nbr m = some x → P m x.link := by
    intro m x hx
    by_cases hc : (((if e.node.ifOf n = e.node.ifOf n then a else d.auth (e.node.ifOf n)) : AState).tab (e.addr n)).isSome = true
    · rw [nbr_ensure _ _ _ hc] at hx
      by_cases hm : m = n
      · rw [if_pos hm] at hx
        subst hm
        have hx : some ((d.nbr m).getD (unheard d.st.now (d.fresh (e.node.ifOf m)))) = some x := hx
        cases hx
        cases hd : d.nbr m with
        | none => exact hf _
        | some y => exact hP _ _ hd
      · rw [if_neg hm] at hx
        exact hP _ _ hx
    · unfold Daemon.ensureNbr at hx
      rw [if_neg (fun h => hc (by
        rw [Bool.and_eq_true] at h
        exact h.1))] at hx
      exact hP _ _ hx
  have hst : d1.st = d.st := by
    rw [hl0]
    exact (ensure_last _ _).2
  have h1 : ∀ m x, d1.nbr m = some x → P m x.link := by
    rw [hl0]
    exact hE
  obtain ⟨_, h2, h3⟩ := receive_ok (hc.nonces _) hl hrc
  have hs1 : Sane d1.st := by rw [hst]; exact hs
  have hH := handles_items eff.items hs1 (by rw [hst]; exact hup) h2 hit
  have h4 : ∀ m x, d2.nbr m = some x → P m x.link := by
    intro m x hx
    rw [hH.nbr] at hx
    by_cases hm : m = n
    · rw [if_pos hm] at hx
      subst hm
      obtain ⟨y, hy, rfl⟩ := Option.map_eq_some_iff.1 hx
      refine noted_all _ (h1 _ _ hy) ?_
      rw [hst]
      exact hi
    · rw [if_neg hm] at hx
      exact h1 _ _ hx
  by_cases hv : eff.verdict = .dropped
  · rw [if_pos hv] at h
    cases h
    exact h4
  · rw [if_neg hv] at h
    obtain ⟨⟨p', it'⟩, _, h⟩ := Option.bind_eq_some_iff.1 h
    obtain ⟨_, _, _, h8⟩ := sample_spec (handles_kept hs1 hH).sane h
    intro m x hx
    rw [h8] at hx
    by_cases hm : m = n
    · rw [if_pos hm] at hx
      subst hm
      obtain ⟨y, hy, rfl⟩ := Option.map_eq_some_iff.1 hx
      exact measured_kept hr (h4 _ _ hy)
    · rw [if_neg hm] at hx
      exact h4 _ _ hx

theorem nbr_of_nbrs {d d' : Daemon} (h : d'.nbrs = d.nbrs) (m : NeighId) : d'.nbr m = d.nbr m := by
  unfold Daemon.nbr
  rw [h]

/-- Any event. -/
theorem dstep_nbrs (hc : DCfgOk e) {d d' : Daemon} {ev : DEv} (hs : Sane d.st) (h : dstep e d ev = some d')
    (hl : ∀ n buf len dst, ev = .packet n buf len dst → len ≤ buf.length) {P : NeighId → Nbr → Prop} (hP : ∀ m x, d.nbr m = some x → P m x.link)
    (hf : ∀ n now, P n (Nbr.fresh now)) (hr : ∀ n now i l rtt, P n l → P n (l.addRtt now i rtt).1)
    (hk : ∀ n now l l' b, P n l → l.check now = some (l', b) → P n l')
    (hi : ∀ n buf len dst d1 eff, ev = .packet n buf len dst → ifUp d.st (e.node.ifOf n) = true → d.accept e n buf len dst = some (d1, eff) → ∀ it ∈ eff.items, ∀ x : DNbr,
      P n x.link → P n (noted d.st.now x it).link) : ∀ m x, d'.nbr m = some x → P m x.link := by
  cases ev with
  | packet n buf len dst =>
    exact packet_nbrs hc hs (hl _ _ _ _ rfl) h hP (hf n) (hr n) fun d1 eff hup ha => hi n buf len dst d1 eff rfl hup ha
  | checkNbr n =>
    have h : d.checkNbr e n = some d' := h
    unfold Daemon.checkNbr at h
    cases hx : d.nbr n with
    | none =>
      rw [hx] at h
      cases h
      exact hP
    | some x =>
      rw [hx] at h
      simp only at h
      cases hcx : x.link.check d.st.now with
      | none =>
        rw [hcx] at h
        simp only [Option.bind_eq_bind] at h
        obtain ⟨d1, h1, h⟩ := Option.bind_eq_some_iff.1 h
        cases h
        intro m y hy
        refine hP m y ?_
        rw [← nbr_of_nbrs (node_nbrs h1) m]
        have hy : ((d1.nbrs.filter fun p => !(p.1 == n)).find? (·.1 == m)).map (·.2) = some y := hy
        rw [nbr_filter] at hy
        by_cases hm : m = n
        · rw [if_pos hm] at hy
          cases hy
        · rw [if_neg hm] at hy
          exact hy
      | some r =>
        obtain ⟨l, b⟩ := r
        rw [hcx] at h
        simp only at h
        intro m y hy
        rw [nbr_of_nbrs (recost_nbrs h), nbr_setNbr] at hy
        by_cases hm : m = n
        · rw [if_pos hm, hx] at hy
          cases hy
          rw [hm]
          exact hk _ _ _ _ _ (hP _ _ hx) hcx
        · rw [if_neg hm] at hy
          exact hP _ _ hy
  | node ev =>
    have h : (if isInternal ev = true then d.node e ev else some d) = some d' := h
    by_cases hi : isInternal ev = true
    · rw [if_pos hi] at h
      intro m x hx
      rw [nbr_of_nbrs (node_nbrs h)] at hx
      exact hP m x hx
    · rw [if_neg hi] at h
      cases h
      exact hP
  | say i j op =>
    have h : (if isChatter op ∧ j < d.fresh i ∧ (ifUp d.st i = true ∨ j ≠ 0) then d.write e i j op else some d) = some d' := h
    split at h
    · obtain ⟨l, rfl⟩ := write_only h
      exact hP
    · cases h
      exact hP
  | down i =>
    have h : (if ifUp d.st i then d.nodeAs e (ownBuf i Buf.down) (.ifDown i) else some d) = some d' := h
    split at h
    · intro m x hx
      rw [nbr_of_nbrs (node_nbrs h)] at hx
      exact hP m x hx
    · cases h
      exact hP
  | up i mtu fi full =>
    have h : (if (getIf d.st i).isSome ∧ ifUp d.st i = false then
      d.nodeAs e (ownBuf i fun b => b.up b.dst mtu fi) (.ifUp i full) else some d) = some d' := h
    split at h
    · intro m x hx
      rw [nbr_of_nbrs (node_nbrs h)] at hx
      exact hP m x hx
    · cases h
      exact hP

end

/-! ### The IHUs that are sent -/

section
variable {e : DCfg} {X : PKey → Prop} {s0 : St} (he : DCfgOk e) (hX : ∀ a b, X a → X b → Proper ⟨a.prefix_, b.plen, b.srcPrefix, a.srcPlen⟩)
  (hA : ∀ n, (e.addr n).length = 16)

theorem TInv.sane {S : IfId → Prop} {d : Daemon} (h : TInv e X s0 S d) : Sane d.st := by
  have hk := h.inv.keys
  refine ⟨fun r hr => ⟨trivial, trivial⟩, fun _ _ => trivial, fun _ _ _ _ => trivial, fun r hr => ⟨trivial, fun _ => trivial⟩, fun o ho => ?_⟩
  have := hk.out o ho
  cases o with
  | update i id k q m => exact ⟨trivial, trivial, this.2.2⟩
  | request i to k => exact fun _ _ => trivial
  | mhRequest i to k q id hh => exact ⟨trivial, trivial, this.2.2⟩
  | _ => trivial

theorem tells_mem {S : IfId → Prop} (hS : ∀ i, S i) {d d' : Daemon} {js : List (NeighId × DNbr × Nat)} (h : Tells e S d d' js) {E : PEnv}
    (hE : linklocal E.sender = true) {i : IfId} {j : Nat} {r : Nat × Nat} (hr : r ∈ ihusOn E (d'.link i) j) : r ∈ ihusOn E (d.link i) j ∨
    ∃ p ∈ js, E.isOurs (e.addr p.1) = true ∧ r = ihuFor e d p.1 p.2.1 := by
  rw [h E hE i j (.inr (hS i)), List.mem_append] at hr
  rcases hr with hr | hr
  · exact .inl hr
  · obtain ⟨p, hp, rfl⟩ := List.mem_map.1 hr
    obtain ⟨h1, h2⟩ := List.mem_filter.1 hp
    simp only [Bool.and_eq_true] at h2
    exact .inr ⟨p, h1, h2.2, rfl⟩

include he hX hA in
theorem tstep_ihus {S : IfId → Prop} (hS : ∀ i, S i) {t t' : Talk} (h : TInv e X s0 S t.d) {ev : TEv} (hev : TEvOk e X ev) (hs : ∀ i, Staying i ev)
    (hk : tstep e t ev = some t') {E : PEnv} (hE : linklocal E.sender = true) {i : IfId} {j : Nat} {r : Nat × Nat}
    (hr : r ∈ ihusOn E (t'.d.link i) j) : r ∈ ihusOn E (t.d.link i) j ∨
    ∃ m y, t.d.nbr m = some y ∧ ifUp t.d.st (e.node.ifOf m) = true ∧ E.isOurs (e.addr m) = true ∧ r = ihuFor e t.d m y := by
  cases ev with
  | ev x =>
    have hk : (if isOther x = true then (dstep e t.d x).bind (fun d => some _) else some t) = some t' := hk
    by_cases ho : isOther x = true
    · rw [if_pos ho] at hk
      obtain ⟨d', h1, h2⟩ := Option.bind_eq_some_iff.1 hk
      obtain ⟨_, r2, _⟩ := other_did he hX h hev ho (fun i _ => hs i) h1
      cases h2
      have := r2 _ asIhu ihu_chat E hE i j (.inr (hS i))
      rw [List.filterMap_nil, List.append_nil] at this
      have hr : r ∈ reads asIhu E (d'.link i) j := hr
      rw [this] at hr
      exact .inl hr
    · rw [if_neg ho] at hk
      cases hk
      exact .inl hr
  | hello i0 =>
    by_cases hup : ifUp t.d.st i0 = false
    · have hk : t.hello e i0 = some t' := hk
      rw [hello_down he hX hA h hup] at hk
      cases hk
      exact .inl hr
    · obtain ⟨t2, b, e1, _, _, _, ⟨js, j1, _, tl⟩, _⟩ := hello_did he hX hA h (i := i0) (by simpa using hup)
      have hk : t.hello e i0 = some t' := hk
      rw [e1] at hk
      cases hk
      rcases tells_mem hS tl hE hr with hr | ⟨p, hp, h1, h2⟩
      · exact .inl hr
      · have hm : (p.1, p.2.1) ∈ addressees e t.d i0 (bump t.seq b i0 i0 % 3 == 0) := by
          rw [← j1]
          exact List.mem_map.2 ⟨p, hp, rfl⟩
        obtain ⟨h3, h4⟩ := List.mem_filter.1 hm
        simp only [Bool.and_eq_true, beq_iff_eq] at h4
        refine .inr ⟨p.1, p.2.1, nbr_of_mem (nbrs_nodup h.housed) h3, ?_, h1, h2⟩
        rw [h4.1]
        simpa using hup
  | last i0 =>
    obtain ⟨d1, b, e1, c1, _⟩ := multicast_did he hX h i0 10 true
    have hk : t.multicastHello e i0 10 true = some t' := hk
    rw [e1] at hk
    cases hk
    have hr : r ∈ ihusOn E (d1.link i) j := hr
    rw [c1.ihus hE (.inr (hS i)), greeting_ihu, List.append_nil] at hr
    exact .inl hr
  | ihu n =>
    have hk : t.sendIhu e n = some t' := hk
    by_cases hup : ifUp t.d.st (e.node.ifOf n) = false
    · rw [ihu_down hup] at hk
      cases hk
      exact .inl hr
    · cases hx : t.d.nbr n with
      | none =>
        unfold Talk.sendIhu at hk
        rw [hx] at hk
        cases hk
        exact .inl hr
      | some x =>
        have hup : ifUp t.d.st (e.node.ifOf n) = true := by simpa using hup
        obtain ⟨t2, e2, _, _, _, _, _, js, j1, _, tl⟩ := ihus_did he hX hA (i := e.node.ifOf n) [(n, x)] h hup (fun p hp => by
          rw [List.mem_singleton] at hp
          subst hp
          exact ⟨rfl, hx⟩)
        have e2 : (t.sendIhu e n >>= fun t => some t) = some t2 := e2
        rw [hk] at e2
        have e2 : some t' = some t2 := e2
        cases e2
        rcases tells_mem hS tl hE hr with hr | ⟨p, hp, h1, h2⟩
        · exact .inl hr
        · have hm : (p.1, p.2.1) ∈ [(n, x)] := by
            rw [← j1]
            exact List.mem_map.2 ⟨p, hp, rfl⟩
          rw [List.mem_singleton] at hm
          obtain ⟨h3, h4⟩ := Prod.mk.inj hm
          rw [h3] at h1
          rw [h3, h4] at h2
          exact .inr ⟨n, x, hx, hup, h1, h2⟩

theorem start_ihus {d : Daemon} (hd : DStart d) {E : PEnv} (hE : linklocal E.sender = true) (i : IfId) (j : Nat) : ihusOn E (d.link i) j = [] := by
  unfold ihusOn wholly unsent sentOn
  rw [(hd.links i).2.2.2, ((hd.links i).1 j).2.2.1, heard_empty hE]
  rfl

end

end Babel
