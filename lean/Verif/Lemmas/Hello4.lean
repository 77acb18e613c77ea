import Verif.Lemmas.Hello3
/-
Runs with hellos and IHUs.
-/
set_option linter.unusedSimpArgs false
set_option linter.unusedVariables false
set_option linter.unusedSectionVars false
namespace Babel
open Spec

theorem heard_empty {E : PEnv} (hE : linklocal E.sender = true) : heard E (packet [] []) = [] := by
  have := decode_many E [] [] [] hE (by simp) (.inl rfl) (by decide)
  unfold decode at this
  simp only [List.append_nil] at this
  unfold heard
  rw [show packet [] [] = packet (encAll []) [] from rfl, this]
  rfl

section
variable {e : DCfg} {X : PKey → Prop} {s0 : St} {S : IfId → Prop}

theorem nbrs_nodup {d : Daemon} (hh : Housed e d) : (d.nbrs.map (·.1)).Nodup := by
  have := hh.nodup
  unfold shape at this
  rw [List.map_map] at this
  exact this

theorem ihu_down {t : Talk} {n : NeighId} (hup : ifUp t.d.st (e.node.ifOf n) = false) : t.sendIhu e n = some t := by
  unfold Talk.sendIhu
  cases t.d.nbr n with
  | none => rfl
  | some x =>
    simp only
    rw [if_pos hup]

theorem ihus_down {i : IfId} {t : Talk} (hup : ifUp t.d.st i = false) (ns : List NeighId) (hn : ∀ n ∈ ns, e.node.ifOf n = i) :
    ns.foldlM (fun t n => t.sendIhu e n) t = some t := by
  induction ns with
  | nil => rfl
  | cons n ns ih =>
    have h1 := hn n (List.mem_cons_self ..)
    rw [List.foldlM_cons, ihu_down (by rw [h1]; exact hup)]
    exact ih fun m hm => hn m (List.mem_cons_of_mem _ hm)

/-- The neighbours who get an IHU. -/
def addressees (e : DCfg) (d : Daemon) (i : IfId) (all : Bool) : List (NeighId × DNbr) :=
  d.nbrs.filter fun p => e.node.ifOf p.1 == i && (all || marginal p.2)

variable (he : DCfgOk e) (hX : ∀ a b, X a → X b → Proper ⟨a.prefix_, b.plen, b.srcPrefix, a.srcPlen⟩) (hA : ∀ n, (e.addr n).length = 16)

/-- The intervals of hellos. -/
def Usual (C : IfId → Nat) (i : IfId) (vs : List Nat) : Prop := ∀ v ∈ vs, v = 0 ∨ v = C i ∨ v = 10

theorem usual_append {C : IfId → Nat} {i : IfId} {a b : List Nat} (h : Usual C i a) (g : Usual C i b) : Usual C i (a ++ b) := fun v hv =>
  (List.mem_append.1 hv).elim (h v) (g v)

include he hX hA in
theorem hello_down {t : Talk} (h : TInv e X s0 S t.d) {i : IfId} (hup : ifUp t.d.st i = false) : t.hello e i = some t := by
  unfold Talk.hello Talk.multicastHello
  rw [if_pos hup]
  show t.sendIhus e i _ = some t
  unfold Talk.sendIhus
  apply ihus_down hup
  intro n hn
  obtain ⟨p, hp, rfl⟩ := List.mem_map.1 hn
  have := (List.mem_filter.1 hp).2
  simp only [Bool.and_eq_true, beq_iff_eq] at this
  exact this.1

include he hX hA in
/-- A scheduled hello, with its IHUs. -/
theorem hello_did {t : Talk} (h : TInv e X s0 S t.d) {i : IfId} (hup : ifUp t.d.st i = true) :
    ∃ t' b, t.hello e i = some t' ∧ (∃ w, Chats e X s0 S t.d t'.d w) ∧
      Greets S (fun x vs => ∃ k, vs = (if b = true ∧ x = i then [helloCs t i] else []) ++ List.replicate k 0 ∧
        (x = i → ((e.ifs i).timestamps = true ∨ k = 0)) ∧ (x ≠ i → k = 0)) t t' ∧ (Unis e t → Unis e t') ∧
      (∃ js : List (NeighId × DNbr × Nat), js.map (fun p => (p.1, p.2.1)) = addressees e t.d i (bump t.seq b i i % 3 == 0) ∧
        (∀ p ∈ js, p.2.2 = 0 ∨ p.2.2 = p.2.1.buf) ∧ Tells e S t.d t'.d js) ∧
      (∀ x, x ≠ i → t'.seq x = t.seq x) ∧ ((e.ifs i).timestamps = false → t'.seq = bump t.seq b i) ∧
      (0 < helloMs t.d i → b = true) := by
  obtain ⟨d1, b, e1, c1, _, hb⟩ := multicast_did he hX h i ((helloMs t.d i + 9) / 10) true
  have c1' : Chats e X s0 S t.d d1 (fun E i0 j0 => (greeting b false i 0 (t.seq i + 1) (helloCs t i) E i0 j0 ++
      greeting false true (e.node.ifOf 0) 0 (t.useq 0 + 1) 0 E i0 j0) ++ []) := c1.congr fun E i0 j0 => by simp [greeting, helloCs]
  obtain ⟨g1, u1⟩ := greets_of (rest := fun _ _ _ => []) h c1' (fun _ _ _ => rfl) nofun
  rw [bump_false] at g1 u1
  obtain ⟨t2, e2, ⟨w2, c2⟩, g2, u2, q2, z2, js, j1, j2, tl2⟩ := ihus_did he hX hA (addressees e t.d i (bump t.seq b i i % 3 == 0))
    (t := ⟨d1, bump t.seq b i, t.useq⟩) c1.inv (by show ifUp d1.st i = true; rw [c1.up]; exact hup)
    (fun p hp => by
      have hp := List.mem_filter.1 hp
      have h2 := hp.2
      simp only [Bool.and_eq_true, beq_iff_eq] at h2
      refine ⟨h2.1, ?_⟩
      show d1.nbr p.1 = some p.2
      rw [c1.nbr]
      exact nbr_of_mem (nbrs_nodup h.housed) hp.1)
  have tl1 : Tells e S t.d d1 [] := .start c1 fun E i0 j0 => greeting_ihu ..
  refine ⟨t2, b, ?_, ⟨_, c1.trans c2⟩, g1.trans g2 ?_, fun hU => u2 (u1 hU), ⟨js, j1, j2, tl1.trans tl2 fun n x => ihuFor_same h c1 n x⟩,
    fun x hx => ?_, z2, fun hms => hb hup (fun hc => by have := hc.1; omega) rfl⟩
  · unfold Talk.hello
    rw [e1]
    show Talk.sendIhus e ⟨d1, bump t.seq b i, t.useq⟩ i (bump t.seq b i i % 3 == 0) = _
    unfold Talk.sendIhus
    show List.foldlM _ _ (List.map _ (d1.nbrs.filter _)) = _
    rw [c1.nbrs]
    exact e2
  · rintro y vs vs' rfl ⟨k, rfl, hk, hk'⟩
    exact ⟨k, rfl, hk, hk'⟩
  · rw [q2 x hx]
    show (if b = true ∧ x = i then _ else _) = _
    rw [if_neg fun h => hx h.2]

/-- What is true before and after every event. -/
structure Talks (e : DCfg) (X : PKey → Prop) (s0 : St) (S : IfId → Prop) (t t' : Talk) : Prop where
  inv : TInv e X s0 S t'.d
  greets : Greets S (Usual (helloCs t)) t t'
  unis : Unis e t → Unis e t'
  devs : ∃ l, drun e t.d l = some t'.d ∧ ∀ ev ∈ l, DEvOk e Proper X SndOk ev

theorem helloCs_same {t t' : Talk} (h : TInv e X s0 S t.d) (h' : TInv e X s0 S t'.d) : helloCs t' = helloCs t := by
  funext i
  unfold helloCs
  rw [h.ms h']

theorem Talks.trans {a b c : Talk} (ha : TInv e X s0 S a.d) (h : Talks e X s0 S a b) (g : Talks e X s0 S b c) : Talks e X s0 S a c := by
  obtain ⟨l1, e1, o1⟩ := h.devs
  obtain ⟨l2, e2, o2⟩ := g.devs
  refine ⟨g.inv, h.greets.trans g.greets fun i x y hx hy => ?_, fun hU => g.unis (h.unis hU), l1 ++ l2, drun_append e1 e2, fun ev hev =>
    (List.mem_append.1 hev).elim (o1 ev) (o2 ev)⟩
  rw [helloCs_same ha h.inv] at hy
  exact usual_append hx hy

theorem Talks.refl {t : Talk} (h : TInv e X s0 S t.d) : Talks e X s0 S t t :=
  ⟨h, .refl (fun _ _ h => by cases h) rfl (fun _ _ _ _ => rfl), id, [], rfl, fun _ h => by cases h⟩

theorem reads_new {β : Type} (f : Item → Option β) {d : Daemon} (h : TInv e X s0 S d) {i : IfId} {j : Nat} (hj : d.fresh i ≤ j) {E : PEnv}
    (hE : linklocal E.sender = true) : reads f E (d.link i) j = [] := by
  obtain ⟨h1, h2⟩ := (h.inv.links i).own.new j hj
  unfold reads wholly unsent
  rw [h1, h2, heard_empty hE]
  rfl

include he hX hA in
/-- One event. -/
theorem tstep_did {t : Talk} (h : TInv e X s0 S t.d) {ev : TEv} (hev : TEvOk e X ev) (hs : ∀ i, S i → Staying i ev) :
    ∃ t', tstep e t ev = some t' ∧ Talks e X s0 S t t' := by
  cases ev with
  | ev x =>
    by_cases ho : isOther x = true
    · obtain ⟨d', hk⟩ := other_ok he hX h hev hs
      obtain ⟨r1, r2, r3, r4⟩ := other_did he hX h hev ho hs hk
      refine ⟨_, by
        show (if isOther x = true then _ else _) = _
        rw [if_pos ho, hk]
        rfl, r1, ?_, ?_, [x], ?_, ?_⟩
      · refine .refl (fun _ _ h => by cases h) rfl fun i hi E hE => ?_
        have := r2 _ asHello hello_chat E hE i 0 (.inr hi)
        rw [List.filterMap_nil, List.append_nil] at this
        exact this
      · intro hU n j hn
        have hn : (n, j) ∈ shape d' := hn
        obtain ⟨y, hy, rfl⟩ := shape_mem r1.housed.nodup hn
        have hj0 : y.buf ≠ 0 := (HoldsAt.buf ⟨_, r1.inv⟩ hn).2
        have hread : ∀ E : PEnv, linklocal E.sender = true → hellosOn E (d'.link (e.node.ifOf n)) y.buf = hellosOn E (t.d.link (e.node.ifOf n)) y.buf := by
          intro E hE
          have := r2 _ asHello hello_chat E hE (e.node.ifOf n) y.buf (.inl hj0)
          rw [List.filterMap_nil, List.append_nil] at this
          exact this
        rcases r4 _ hn with ho | ho
        · obtain ⟨k, u1, u2⟩ := hU n y.buf ho
          refine ⟨k, ?_, fun E hE => (hread E hE).trans (u2 E hE)⟩
          obtain ⟨z, hz, hb⟩ := shape_mem h.housed.nodup ho
          show (if (d'.nbr n).map (·.buf) = (t.d.nbr n).map (·.buf) then t.useq n else 0) = _
          rw [hy, hz, if_pos (by simp [hb]), u1]
        · have ho : t.d.fresh (e.node.ifOf n) ≤ y.buf := ho
          refine ⟨0, ?_, fun E hE => (hread E hE).trans ?_⟩
          · show (if (d'.nbr n).map (·.buf) = (t.d.nbr n).map (·.buf) then t.useq n else 0) = _
            rw [if_neg]
            · rfl
            · rw [hy]
              cases hz : t.d.nbr n with
              | none => nofun
              | some z =>
                intro hc
                have hc : y.buf = z.buf := Option.some.inj hc
                have h3 : z.buf < t.d.fresh (e.node.ifOf n) := (HoldsAt.buf ⟨_, h.inv⟩ (mem_shape hz)).1
                omega
          · exact reads_new asHello h ho hE
      · unfold drun
        rw [List.foldlM_cons, hk]
        rfl
      · intro ev hx
        rw [List.mem_singleton] at hx
        subst hx
        exact hev
    · refine ⟨t, ?_, .refl h⟩
      show (if isOther x = true then _ else _) = _
      rw [if_neg ho]
  | hello i =>
    by_cases hup : ifUp t.d.st i = false
    · exact ⟨t, hello_down he hX hA h hup, .refl h⟩
    · obtain ⟨t', b, e1, ⟨w, c⟩, g, u, _⟩ := hello_did he hX hA h (i := i) (by simpa using hup)
      refine ⟨t', e1, c.inv, g.mono ?_, u, c.devs⟩
      rintro x vs ⟨k, rfl, _, _⟩ v hv
      rcases List.mem_append.1 hv with hv | hv
      · by_cases hc : b = true ∧ x = i
        · rw [if_pos hc, List.mem_singleton] at hv
          rw [hc.2]
          exact .inr (.inl hv)
        · rw [if_neg hc] at hv
          cases hv
      · exact .inl (List.eq_of_mem_replicate hv)
  | last i =>
    obtain ⟨d1, b, e1, c1, _⟩ := multicast_did he hX h i 10 true
    have c1' : Chats e X s0 S t.d d1 (fun E i0 j0 => (greeting b false i 0 (t.seq i + 1) 10 E i0 j0 ++
        greeting false true (e.node.ifOf 0) 0 (t.useq 0 + 1) 0 E i0 j0) ++ []) := c1.congr fun E i0 j0 => by simp [greeting]
    obtain ⟨g1, u1⟩ := greets_of (rest := fun _ _ _ => []) h c1' (fun _ _ _ => rfl) nofun
    rw [bump_false] at g1 u1
    refine ⟨_, e1, c1.inv, g1.mono ?_, u1, c1.devs⟩
    rintro x vs rfl v hv
    split at hv
    · rw [List.mem_singleton] at hv
      exact .inr (.inr hv)
    · cases hv
  | ihu n =>
    show ∃ t', t.sendIhu e n = some t' ∧ _
    by_cases hup : ifUp t.d.st (e.node.ifOf n) = false
    · exact ⟨t, ihu_down hup, .refl h⟩
    · cases hx : t.d.nbr n with
      | none =>
        refine ⟨t, ?_, .refl h⟩
        unfold Talk.sendIhu
        rw [hx]
      | some x =>
        obtain ⟨t', e1, ⟨w, c⟩, g, u, _⟩ := ihus_did he hX hA (i := e.node.ifOf n) [(n, x)] h (by simpa using hup) (fun p hp => by
          rw [List.mem_singleton] at hp
          subst hp
          exact ⟨rfl, hx⟩)
        have e1 : (t.sendIhu e n >>= fun t => some t) = some t' := e1
        refine ⟨t', ?_, c.inv, g.mono ?_, u, c.devs⟩
        · cases h5 : t.sendIhu e n with
          | none => rw [h5] at e1; cases e1
          | some y => rw [h5] at e1; exact e1
        · rintro x vs ⟨k, rfl, _⟩ v hv
          exact .inl (List.eq_of_mem_replicate hv)

include he hX hA in
theorem trun_did (evs : List TEv) : ∀ {t : Talk}, TInv e X s0 S t.d → (∀ ev ∈ evs, TEvOk e X ev) → (∀ i, S i → ∀ ev ∈ evs, Staying i ev) →
    ∃ t', trun e t evs = some t' ∧ Talks e X s0 S t t' := by
  induction evs with
  | nil => intro t h _ _; exact ⟨t, rfl, .refl h⟩
  | cons ev l ih =>
    intro t h he' hs
    obtain ⟨t1, e1, r1⟩ := tstep_did he hX hA h (he' ev (List.mem_cons_self ..)) fun i hi => hs i hi ev (List.mem_cons_self ..)
    obtain ⟨t2, e2, r2⟩ := ih r1.inv (fun x hx => he' x (List.mem_cons_of_mem _ hx)) (fun i hi x hx => hs i hi x (List.mem_cons_of_mem _ hx))
    refine ⟨t2, ?_, r1.trans h r2⟩
    unfold trun at e2 ⊢
    rw [List.foldlM_cons, e1]
    exact e2

/-- At the start. -/
theorem talk_start {d : Daemon} (hd : DStart d) : TInv e X d.st S d := by
  refine ⟨start_inv (K := talkKit e X d.st S (fun _ => True)) (Nat.zero_le 1) hd rfl fun i l hl => talkL_start hl, ?_⟩
  have : shape d = [] := by unfold shape; rw [hd.nbrs]; rfl
  refine ⟨by rw [this]; exact .nil, fun p hp => ?_, fun p hp => ?_⟩ <;> (rw [this] at hp; cases hp)

theorem start_hellos {d : Daemon} (hd : DStart d) {E : PEnv} (hE : linklocal E.sender = true) (i : IfId) (j : Nat) : hellosOn E (d.link i) j = [] := by
  unfold hellosOn wholly unsent sentOn
  rw [(hd.links i).2.2.2, ((hd.links i).1 j).2.2.1, heard_empty hE]
  rfl

end

end Babel
