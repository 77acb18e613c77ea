import Verif.Lemmas.Buffer8
/-
The packets sent during a run.
-/
set_option linter.unusedSimpArgs false
set_option linter.unusedVariables false
namespace Babel
open Spec

theorem split_unique {A B ts1 ts2 : List Tlv} {b b' : Bytes} (hA : ∀ x, Tlv.tlv 4 x ∉ A) (hB : ∀ x, Tlv.tlv 4 x ∉ B)
    (h : A ++ .tlv 4 b :: B = ts1 ++ .tlv 4 b' :: ts2) : ts1 = A ∧ b' = b ∧ ts2 = B := by
  rcases List.append_eq_append_iff.1 h with ⟨c, h1, h2⟩ | ⟨c, h1, h2⟩
  · cases c with
    | nil =>
      simp at h1 h2
      exact ⟨h1, h2.1.symm, h2.2.symm⟩
    | cons y c =>
      simp at h2
      exact absurd (show Tlv.tlv 4 b' ∈ B by rw [h2.2]; simp) (hB b')
  · cases c with
    | nil =>
      simp at h1 h2
      exact ⟨h1.symm, h2.1, h2.2⟩
    | cons y c =>
      simp at h2
      exact absurd (show Tlv.tlv 4 b' ∈ A by rw [h1, h2.1]; simp) (hA b')

theorem stamped_shape {tf now} {ts : List Tlv} (h : ∀ x, Tlv.tlv 4 x ∉ ts) : ts.map (stampTlv tf now) = ts := stamp_none h

theorem helloAt_sent {a tf : Bool} {b : Buf} {ts : List Tlv} (g : Good a tf b ts) (now : Timeval) (ex : List Tlv)
    (hex : ∀ x ∈ ex, x.Ok ∧ ∃ b, x = .tlv 17 b) : HelloAt tf now (ts.map (stampTlv tf now) ++ ex) := by
  have hx4 : ∀ x, Tlv.tlv 4 x ∉ ex := by
    intro x hx
    obtain ⟨_, b, hb⟩ := hex _ hx
    injection hb with h1 h2
    exact absurd h1 (by decide)
  intro t1 bb t2 heq
  rcases g.hello with ⟨_, h2⟩ | ⟨ts1, f, ts2, h1, h2, h3, h5, h6⟩
  · rw [stamp_none h2] at heq
    have : Tlv.tlv 4 bb ∈ ts ++ ex := by rw [heq]; simp
    rcases List.mem_append.1 this with h | h
    · exact absurd h (h2 bb)
    · exact absurd h (hx4 bb)
  · rw [h2, List.map_append, List.map_cons, stamp_none h5, stamp_none h6, List.append_assoc, List.cons_append] at heq
    have h6' : ∀ x, Tlv.tlv 4 x ∉ ts2 ++ ex := by
      intro x hx
      rcases List.mem_append.1 hx with h | h
      · exact h6 x h
      · exact hx4 x h
    cases tf with
    | false =>
      rw [stampTlv_off] at heq
      obtain ⟨r1, r2, r3⟩ := split_unique h5 h6' heq
      rw [r1, r3]
      exact ⟨h5, h6', fun h => by cases h⟩
    | true =>
      have hst : stampTlv true now (.tlv 4 (f ++ stampPad true)) = .tlv 4 (f ++ ([3, 4] ++ be32 (timeUs now))) := by
        show (if true = true then Tlv.tlv 4 ((f ++ stampPad true).take 6 ++ ([3, 4] ++ be32 (timeUs now))) else .tlv 4 (f ++ stampPad true)) = _
        rw [if_pos rfl, List.take_append_of_le_length (by omega), List.take_of_length_le (by omega)]
      rw [hst] at heq
      obtain ⟨r1, r2, r3⟩ := split_unique h5 h6' heq
      rw [r1, r3]
      refine ⟨h5, h6', fun _ => ⟨f, h3, ?_⟩⟩
      rw [r2]
      simp [Tlv.enc, be32_length]

/-- A packet as the specification wants it. -/
def PacketOk (tf : Bool) (dst : Nat → Bytes) (size : Nat → Nat) (x : Act) (p : Nat × Bytes) : Prop :=
  x.i = p.1 ∧ ∃ ts tr, ts ≠ [] ∧ (∀ t ∈ ts, t.Ok) ∧ p.2 = packet (encAll ts) tr ∧
    (encAll ts).length + tr.length ≤ size p.1 ∧ TrailerOk x.c (dst p.1) (size p.1) (encAll ts) tr ∧
    HelloAt tf x.now ts

theorem run_packets {a tf o} {acts : List Act} {l : Link} (hs : Steady a tf o acts) (hf : FreshLink l) :
    ∃ l', l.run o acts = some l' ∧ (∀ i, (l'.bufs i).size = (l.bufs i).size ∧ (l'.bufs i).dst = (l.bufs i).dst ∧
        ∃ ts, (l'.bufs i).bytes = encAll ts ∧ (∀ t ∈ ts, t.Ok) ∧ (encAll ts).length ≤ (l.bufs i).size) ∧
      ∀ p ∈ l'.out, ∃ x ∈ acts, PacketOk tf (fun i => (l.bufs i).dst) (fun i => (l.bufs i).size) x p := by
  obtain ⟨l', tss', h1, h2, h3⟩ := run_ind (a := a) (tf := tf) (o := o) (fun x => x ∈ acts)
    (fun l' => (∀ i, (l'.bufs i).size = (l.bufs i).size ∧ (l'.bufs i).dst = (l.bufs i).dst) ∧
      ∀ p ∈ l'.out, ∃ x ∈ acts, PacketOk tf (fun i => (l.bufs i).dst) (fun i => (l.bufs i).size) x p)
    (by
      intro l1 l2 tss ts' ps x hx hst g p hstep g' hout hsent hsz
      refine ⟨fun i => ⟨by rw [hsz, (p.1 i).1], by rw [step_same hstep i, (p.1 i).2]⟩, ?_⟩
      intro q hq
      rw [hout] at hq
      rcases List.mem_append.1 hq with h | h
      · exact p.2 q h
      · refine ⟨x, hx, ?_⟩
        generalize l2.pc = pc' at hsent
        generalize l2.index = ix' at hsent
        generalize l2.draws = dr' at hsent
        cases hsent with
        | none => simp at h
        | sent tr ex pc ix dr e0 e1 e2 e3 e4 =>
          simp only [List.map_cons, List.map_nil, List.mem_singleton] at h
          subst h
          refine ⟨rfl, (tss x.i).map (stampTlv tf x.now) ++ ex, tr, ?_, ?_, rfl, ?_, ?_, helloAt_sent (g.good x.i) x.now ex e3⟩
          · intro h
            have := List.append_eq_nil_iff.1 h
            exact e0 (List.map_eq_nil_iff.1 this.1)
          · intro t ht
            rcases List.mem_append.1 ht with h | h
            · exact (stamped_ok (g.good x.i) x.now t h).1
            · exact (e3 t h).1
          · show _ ≤ (l.bufs x.i).size
            rw [← (p.1 x.i).1]; exact e2
          · have h1 := (p.1 x.i).1
            have h2 := (p.1 x.i).2
            simp only [← h1, ← h2]
            exact e4)
    acts l (fun _ => []) hs (fun x h => h) (Spec.FreshLink.good hf) ⟨fun i => ⟨rfl, rfl⟩, by rw [hf.2.2.2]; simp⟩
  refine ⟨l', h1, fun i => ⟨(h3.1 i).1, (h3.1 i).2, tss' i, (h2.good i).bytes, (h2.good i).ok, ?_⟩, h3.2⟩
  rw [← (h2.good i).bytes, ← (h3.1 i).1]
  have := (h2.good i).room
  omega

/-! ### Counters -/

theorem packet_body_inj {b b' tr tr' : Bytes} (hb : b.length < 65536) (hb' : b'.length < 65536)
    (h : packet b tr = packet b' tr') : b = b' := by
  unfold packet at h
  simp only [List.cons.injEq, true_and, List.append_assoc] at h
  have hl : be16 b.length = be16 b'.length := by
    have := congrArg (List.take 2) h
    simpa [be16] using this
  have h2 : b ++ tr = b' ++ tr' := by
    have := congrArg (List.drop 2) h
    simpa [be16] using this
  have hlen : b.length = b'.length := by
    unfold be16 at hl
    injection hl with e1 e2
    injection e2 with e2 _
    have e1 := congrArg UInt8.toNat e1
    have e2 := congrArg UInt8.toNat e2
    simp at e1 e2
    omega
  exact (List.append_inj h2 hlen).1

theorem be32_inj {m n : Nat} (hm : m < 4294967296) (hn : n < 4294967296) (h : be32 m = be32 n) : m = n := by
  have h1 := number_be32 m hm []
  have h2 := number_be32 n hn []
  rw [h] at h1
  omega

theorem nopc_stamped {a tf : Bool} {b : Buf} {ts : List Tlv} (g : Good a tf b ts) (now : Timeval) :
    ∀ t ∈ ts.map (stampTlv tf now), t.Ok ∧ ∀ x, t ≠ .tlv 17 x := by
  exact fun t ht => stamped_ok g now t ht

theorem carries_none {ts : List Tlv} {tr : Bytes} (hok : ∀ t ∈ ts, t.Ok ∧ ∀ x, t ≠ .tlv 17 x)
    (hl : (encAll ts).length < 65536) (n : Nat) (ix : Bytes) : ¬ Carries (packet (encAll ts) tr) n ix := by
  rintro ⟨ts', tr', h1, h2, h3, h4, h5⟩
  have := packet_body_inj hl h3 h1
  have := encAll_inj _ _ (fun t h => (hok t h).1) (by
    intro t ht
    rcases List.mem_append.1 ht with h | h
    · exact (h5 t h).1
    · rw [List.mem_singleton] at h; subst h; exact ⟨by decide, by simp [be32_length, h4]⟩) this
  exact (hok (.tlv 17 (be32 n ++ ix)) (by rw [this]; simp)).2 _ rfl

theorem carries_one {ts : List Tlv} {tr : Bytes} {m : Nat} {i : Bytes} (hok : ∀ t ∈ ts, t.Ok ∧ ∀ x, t ≠ .tlv 17 x)
    (hm : m < 4294967296) (hi : i.length = 8) (hl : (encAll (ts ++ [.tlv 17 (be32 m ++ i)])).length < 65536) (n : Nat) (ix : Bytes) :
    Carries (packet (encAll (ts ++ [.tlv 17 (be32 m ++ i)])) tr) n ix ↔ n = m ∧ ix = i := by
  constructor
  · rintro ⟨ts', tr', h1, h2, h3, h4, h5⟩
    have h6 := packet_body_inj hl h3 h1
    have hk : ∀ (ts : List Tlv) (m : Nat) (i : Bytes), (∀ t ∈ ts, t.Ok ∧ ∀ x, t ≠ Tlv.tlv 17 x) → i.length = 8 →
        ∀ t ∈ ts ++ [Tlv.tlv 17 (be32 m ++ i)], t.Ok := by
      intro ts m i h hi t ht
      rcases List.mem_append.1 ht with h' | h'
      · exact (h t h').1
      · rw [List.mem_singleton] at h'; subst h'; exact ⟨by decide, by simp [be32_length, hi]⟩
    have h7 := encAll_inj _ _ (hk ts m i hok hi) (hk ts' n ix h5 h4) h6
    have h8 := List.append_inj_right' h7 rfl
    simp only [List.cons.injEq, Tlv.tlv.injEq, true_and, and_true] at h8
    have h9 := List.append_inj h8 (by simp [be32_length])
    exact ⟨(be32_inj hm h2 h9.1).symm, h9.2.symm⟩
  · rintro ⟨rfl, rfl⟩
    exact ⟨ts, tr, rfl, hm, hl, hi, hok⟩

/-- The counters of the packets sent. -/
structure Ctrs (o : Orc) (l : Link) : Prop where
  pc : l.pc < 4294967296
  index : l.pc ≠ 0 → ∃ k, k < l.draws ∧ o.rand k = some l.index
  old : ∀ p ∈ l.out, ∀ n ix, Carries p.2 n ix → (∃ k, k < l.draws ∧ o.rand k = some ix) ∧ (l.pc ≠ 0 → ix = l.index → n < l.pc)
  distinct : l.out.Pairwise fun p q => ∀ n ix, Carries p.2 n ix → ¬ Carries q.2 n ix

theorem ctrs_step {a tf o l l' tss ps} {x : Act} (hinj : ∀ m n i, o.rand m = some i → o.rand n = some i → m = n)
    (hst : Steady a tf o [x]) (g : LGood a tf l tss) (c : Ctrs o l)
    (hout : l'.out = l.out ++ ps.map (fun p => (x.i, p)))
    (hsent : Sent1 o tf x (tss x.i) (l.bufs x.i).dst (l.bufs x.i).size l.pc l.index l.draws ps l'.pc l'.index l'.draws) :
    Ctrs o l' := by
  generalize hpc : l'.pc = pc' at hsent
  generalize hix : l'.index = ix' at hsent
  generalize hdr : l'.draws = dr' at hsent
  cases hsent with
  | none =>
    rw [List.map_nil, List.append_nil] at hout
    exact ⟨by rw [hpc]; exact c.pc, by rw [hpc, hdr, hix]; exact c.index, by rw [hout, hpc, hdr, hix]; exact c.old, by rw [hout]; exact c.distinct⟩
  | sent tr ex pc ix dr e0 e1 e2 e3 e4 =>
    have hnp := nopc_stamped (g.good x.i) x.now
    have hlt : (encAll ((tss x.i).map (stampTlv tf x.now) ++ ex)).length < 65536 := by
      have := (g.good x.i).hi
      omega
    generalize (tss x.i).map (stampTlv tf x.now) = ts at *
    have happ : ∀ q, (∀ p ∈ l.out, ∀ n ix, Carries p.2 n ix → ¬ Carries q n ix) →
        (l.out ++ [(x.i, q)]).Pairwise fun p q => ∀ n ix, Carries p.2 n ix → ¬ Carries q.2 n ix := by
      intro q hq
      rw [List.pairwise_append]
      exact ⟨c.distinct, by simp, fun p hp q' hq' => by rw [List.mem_singleton] at hq'; subst hq'; exact hq p hp⟩
    have hnone : ex = [] → pc' = l.pc → ix' = l.index → l.draws ≤ dr' → Ctrs o l' := by
      rintro rfl hp' hi' hd'
      rw [List.append_nil] at hlt
      have hno := carries_none (tr := tr) hnp hlt
      refine ⟨by rw [hpc, hp']; exact c.pc, ?_, ?_, ?_⟩
      · rw [hpc, hp', hix, hi', hdr]
        intro h
        obtain ⟨k, hk, hk'⟩ := c.index h
        exact ⟨k, by omega, hk'⟩
      · rw [hout, hpc, hp', hix, hi', hdr]
        intro p hp n j hcar
        rcases List.mem_append.1 hp with h | h
        · obtain ⟨⟨k, hk, hk'⟩, h2⟩ := c.old p h n j hcar
          exact ⟨⟨k, by omega, hk'⟩, h2⟩
        · simp only [List.map_cons, List.map_nil, List.mem_singleton, List.append_nil] at h
          subst h
          exact absurd hcar (hno n j)
      · rw [hout]
        simp only [List.map_cons, List.map_nil, List.append_nil]
        exact happ _ (fun p hp n j hc => hno n j)
    unfold nextCtr at e1
    split at e1
    · split at e1
      · next h0 =>
        split at e1
        · simp only [Prod.mk.injEq] at e1
          exact hnone e1.1.symm e1.2.1.symm e1.2.2.1.symm (by omega)
        · next i hr =>
          simp only [Prod.mk.injEq] at e1
          obtain ⟨rfl, rfl, rfl, rfl⟩ := e1
          have hi8 : i.length = 8 := hst.1 _ _ hr
          rw [h0] at *
          have hone := carries_one (tr := tr) hnp (by decide : (0 : Nat) < 4294967296) hi8 hlt
          have hfresh : ∀ p ∈ l.out, ∀ n ix, Carries p.2 n ix → ix ≠ i := by
            rintro p hp n j hcar rfl
            obtain ⟨⟨k, hk, hk'⟩, _⟩ := c.old p hp n j hcar
            have := hinj _ _ _ hr hk'
            omega
          refine ⟨by rw [hpc]; decide, fun _ => ⟨l.draws, by rw [hdr]; omega, by rw [hix]; exact hr⟩, ?_, ?_⟩
          · rw [hout, hpc, hix, hdr]
            intro p hp n j hcar
            rcases List.mem_append.1 hp with h | h
            · obtain ⟨⟨k, hk, hk'⟩, h2⟩ := c.old p h n j hcar
              exact ⟨⟨k, by omega, hk'⟩, fun _ e => absurd e (hfresh p h n j hcar)⟩
            · simp only [List.map_cons, List.map_nil, List.mem_singleton] at h
              subst h
              obtain ⟨rfl, rfl⟩ := (hone n j).1 hcar
              exact ⟨⟨l.draws, by omega, hr⟩, fun _ _ => by decide⟩
          · rw [hout]
            refine happ _ (fun p hp n j hc hc' => ?_)
            exact hfresh p hp n j hc ((hone n j).1 hc').2
      · next h0 =>
        simp only [Prod.mk.injEq] at e1
        obtain ⟨rfl, rfl, rfl, rfl⟩ := e1
        have hone := carries_one (tr := tr) hnp c.pc g.idx hlt
        refine ⟨by rw [hpc]; unfold u32; omega, fun _ => by rw [hdr, hix]; exact c.index h0, ?_, ?_⟩
        · rw [hout, hpc, hix, hdr]
          have hp1 : u32 (l.pc + 1) ≠ 0 → u32 (l.pc + 1) = l.pc + 1 := by
            have := c.pc
            unfold u32; omega
          intro p hp n j hcar
          rcases List.mem_append.1 hp with h | h
          · obtain ⟨h1, h2⟩ := c.old p h n j hcar
            refine ⟨h1, fun hne e => ?_⟩
            rw [hp1 hne]
            have := h2 h0 e
            omega
          · simp only [List.map_cons, List.map_nil, List.mem_singleton] at h
            subst h
            obtain ⟨rfl, rfl⟩ := (hone n j).1 hcar
            exact ⟨c.index h0, fun hne _ => by rw [hp1 hne]; omega⟩
        · rw [hout]
          refine happ _ (fun p hp n j hc hc' => ?_)
          obtain ⟨rfl, rfl⟩ := (hone n j).1 hc'
          have := (c.old p hp _ _ hc).2 h0 rfl
          omega
    · simp only [Prod.mk.injEq] at e1
      exact hnone e1.1.symm e1.2.1.symm e1.2.2.1.symm (by omega)

theorem run_counters {a tf o} {acts : List Act} {l : Link} (hs : Steady a tf o acts) (hf : FreshLink l)
    (hinj : ∀ m n i, o.rand m = some i → o.rand n = some i → m = n) :
    ∃ l', l.run o acts = some l' ∧ Ctrs o l' := by
  obtain ⟨l', tss', h1, h2, h3⟩ := run_ind (a := a) (tf := tf) (o := o) (fun _ => True) (fun l => Ctrs o l)
    (fun l l' tss ts' ps x _ hst g c hstep g' hout hsent hsz => ctrs_step hinj hst g c hout hsent)
    acts l (fun _ => []) hs (fun _ _ => trivial) (Spec.FreshLink.good hf)
    ⟨by rw [hf.2.1]; decide, fun h => absurd hf.2.1 h, by rw [hf.2.2.2]; simp, by rw [hf.2.2.2]; simp⟩
  exact ⟨l', h1, h3⟩

/-- With a key and a working random generator every packet carries a counter. -/
theorem run_carries {a tf o} {acts : List Act} {l : Link} (hs : Steady a tf o acts) (hf : FreshLink l)
    (hr : ∀ n, ∃ i, o.rand n = some i) (hk : ∀ x ∈ acts, ∃ k, x.c.key = some k ∧ k.none = false) :
    ∃ l', l.run o acts = some l' ∧ ∀ p ∈ l'.out, ∃ n ix, Carries p.2 n ix := by
  obtain ⟨l', tss', h1, h2, h3⟩ := run_ind (a := a) (tf := tf) (o := o) (fun x => ∃ k, x.c.key = some k ∧ k.none = false)
    (fun l => l.pc < 4294967296 ∧ ∀ p ∈ l.out, ∃ n ix, Carries p.2 n ix)
    (by
      rintro l l' tss ts' ps x ⟨k, hk1, hk2⟩ hst g c hstep g' hout hsent hsz
      have hauth : x.c.auth.isSome = true := by unfold SIf.auth; rw [hk1]; simp [hk2]
      generalize hpc : l'.pc = pc' at hsent ⊢
      generalize hix : l'.index = ix' at hsent
      generalize hdr : l'.draws = dr' at hsent
      cases hsent with
      | none => rw [hout]; simpa using c
      | sent tr ex pc ix dr e0 e1 e2 e3 e4 =>
        have hnp := nopc_stamped (g.good x.i) x.now
        have hlt : (encAll ((tss x.i).map (stampTlv tf x.now) ++ ex)).length < 65536 := by
          have := (g.good x.i).hi
          omega
        generalize (tss x.i).map (stampTlv tf x.now) = ts at *
        have hfin : ∀ m i, ex = [.tlv 17 (be32 m ++ i)] → m < 4294967296 → i.length = 8 → pc' = u32 (m + 1) →
            pc' < 4294967296 ∧ ∀ p ∈ l'.out, ∃ n ix, Carries p.2 n ix := by
          rintro m i rfl hm hi hp
          refine ⟨by rw [hp]; unfold u32; omega, ?_⟩
          rw [hout]
          intro p hp
          rcases List.mem_append.1 hp with h | h
          · exact c.2 p h
          · simp only [List.map_cons, List.map_nil, List.mem_singleton] at h
            subst h
            exact ⟨m, i, (carries_one hnp hm hi hlt m i).2 ⟨rfl, rfl⟩⟩
        unfold nextCtr at e1
        rw [if_pos hauth] at e1
        split at e1
        · obtain ⟨i, hi⟩ := hr l.draws
          rw [hi] at e1
          simp only [Prod.mk.injEq] at e1
          exact hfin _ i e1.1.symm c.1 (hst.1 _ _ hi) e1.2.1.symm
        · simp only [Prod.mk.injEq] at e1
          exact hfin _ _ e1.1.symm c.1 g.idx e1.2.1.symm)
    acts l (fun _ => []) hs hk (Spec.FreshLink.good hf) ⟨by rw [hf.2.1]; decide, by rw [hf.2.2.2]; simp⟩
  exact ⟨l', h1, h3.2⟩

end Babel
