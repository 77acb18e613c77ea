import Verif.Lemmas.Buffer9
/-
Messages stay in the buffer until they are sent; deadlines.
-/
set_option linter.unusedSimpArgs false
set_option linter.unusedVariables false
namespace Babel
open Spec

theorem mem_stamped {tf now} {z : Tlv} {ts : List Tlv} (hz : z ∈ ts) (h4 : ∀ b, z ≠ .tlv 4 b) : z ∈ ts.map (stampTlv tf now) := by
  refine List.mem_map.2 ⟨z, hz, ?_⟩
  cases z with
  | pad1 => rfl
  | tlv ty b => exact stampTlv_ne (fun h => h4 b (by rw [h]))

theorem sentOn_step {l l' : Link} {ps : List Bytes} {x : Act} (h : l'.out = l.out ++ ps.map (fun p => (x.i, p))) (i : Nat) :
    sentOn l' i = sentOn l i ++ if x.i = i then ps else [] := by
  unfold sentOn
  rw [h, List.filter_append, List.map_append]
  congr 1
  by_cases hi : x.i = i
  · subst hi
    rw [if_pos rfl, filter_self]
  · rw [if_neg hi]
    simp [hi]

theorem run_keep {a tf o} (z : Tlv) (h4 : ∀ b, z ≠ .tlv 4 b) (i : Nat) (sent : List Bytes) :
    ∀ (acts : List Act) (l l' : Link) (tss : Nat → List Tlv), Steady a tf o acts → LGood a tf l tss →
      l.run o acts = some l' →
      ((sentOn l i = sent ∧ z ∈ tss i) ∨
        ∃ p rest, sentOn l i = sent ++ p :: rest ∧ ∃ ts tr, p = packet (encAll ts) tr ∧ (∀ t ∈ ts, t.Ok) ∧ z ∈ ts) →
      Waiting z i sent l' := by
  intro acts
  induction acts with
  | nil =>
    intro l l' tss hs g h hz
    cases h
    rcases hz with ⟨h1, h2⟩ | h
    · exact .inl ⟨h1, tss i, (g.good i).bytes, (g.good i).ok, h2⟩
    · exact .inr h
  | cons x xs ih =>
    intro l l' tss hs g h hz
    obtain ⟨hx, hxs⟩ := Spec.Steady.head hs
    obtain ⟨l1, ts', ps, r1, r2, r3, r4, r5, r7, r6⟩ := step_ok x hx g
    unfold Link.run at h
    rw [r1] at h
    refine ih l1 l' _ hxs r2 h ?_
    have hso := sentOn_step r3 i
    by_cases hi : x.i = i
    · subst hi
      rw [if_pos rfl] at hso
      rcases hz with ⟨h1, h2⟩ | ⟨p, rest, h1, h2⟩
      · generalize l1.pc = pc' at r4
        generalize l1.index = ix' at r4
        generalize l1.draws = dr' at r4
        cases r4 with
        | none =>
          obtain ⟨new, hn⟩ := r7 rfl
          refine .inl ⟨by rw [hso, h1]; simp, ?_⟩
          simp only [if_true]
          rw [hn]
          exact List.mem_append_left _ h2
        | sent tr ex pc ix dr e0 e1 e2 e3 e4 =>
          refine .inr ⟨_, [], by rw [hso, h1], _, tr, rfl, ?_, List.mem_append_left _ (mem_stamped h2 h4)⟩
          intro t ht
          rcases List.mem_append.1 ht with h | h
          · exact (stamped_ok (g.good x.i) x.now t h).1
          · exact (e3 t h).1
      · exact .inr ⟨p, rest ++ ps, by rw [hso, h1]; simp, h2⟩
    · have hi' : ¬ i = x.i := fun h => hi h.symm
      rw [if_neg hi, List.append_nil] at hso
      simp only [if_neg hi']
      rw [hso]
      exact hz

/-- A message written ends up at the end of the buffer. -/
theorem message_last {a tf : Bool} {o : Orc} {c : SIf} (hc : Circ a tf o c) (now : Timeval) {t t' : Tx} {ts : List Tlv}
    (g : Good a tf t.buf ts) (hi : t.index.length = 8) (ty len : Nat) (body : Bytes)
    (hty : 0 < ty ∧ ty < 256) (hlen : body.length = len) (hle : len ≤ 192) (h : message o c now ty len body t = some t') :
    ∃ base, t'.buf.bytes = encAll (base ++ [.tlv (UInt8.ofNat ty) body]) ∧ ∀ t ∈ base ++ [Tlv.tlv (UInt8.ofNat ty) body], t.Ok := by
  obtain ⟨t1, base, h1, h2, h3⟩ := ensure_ok hc now g hi (len + 2) (by omega)
  obtain ⟨g1, hi1, hs1⟩ := h2.good g hi
  obtain ⟨T, R, h4⟩ := message_fit hc now t1 ty len body hty.2 hlen (by omega) h3
  have h5 : message o c now ty len body t = message o c now ty len body t1 := by
    unfold message
    rw [start_fit hc now t1 ty len h3]
    unfold startMessage
    rw [h1]
    simp only [Option.bind_eq_bind, Option.bind_some]
    unfold Buf.put
    rw [if_pos (by simp; omega)]
    rfl
  rw [h5, h4] at h
  cases h
  refine ⟨base, ?_, ?_⟩
  · rw [encAll_snoc, ← g1.bytes]
    rfl
  · intro t ht
    rcases List.mem_append.1 ht with h | h
    · exact g1.ok t h
    · rw [List.mem_singleton] at h
      subst h
      refine ⟨?_, by omega⟩
      intro h
      have := congrArg UInt8.toNat h
      simp at this
      omega

theorem sched_bytes (o : Orc) (now : Timeval) (ms : Int) (t : Tx) : (scheduleFlushMs o now ms t).buf.bytes = t.buf.bytes := by
  obtain ⟨T, R, h⟩ := schedule_shape o now ms t
  rw [h]

/-- The TLV written by an acknowledgment, challenge, challenge reply or IHU. -/
def written : Snd → Option Tlv
  | .ack n _ => some (.tlv 3 (be16 n))
  | .challenge n => some (.tlv 18 n)
  | .reply n => some (.tlv 19 n)
  | .ihu r i ad rtt => some (.tlv 5 ([if linklocal ad then 3 else 2, 0] ++ htons r ++ htons i ++
      (if linklocal ad then (ad.drop 8).take 8 else ad.take 16) ++ rttSubTlv rtt))
  | _ => none

theorem op_last {a tf : Bool} {o : Orc} {c : SIf} (hc : Circ a tf o c) (now : Timeval) {t t' : Tx} {ts : List Tlv}
    (g : Good a tf t.buf ts) (hi : t.index.length = 8) (op : Snd) (hop : SndOk op) (h : op.run o c now t = some t')
    (z : Tlv) (hz : written op = some z) :
    ∃ base, t'.buf.bytes = encAll (base ++ [z]) ∧ ∀ t ∈ base ++ [z], t.Ok := by
  cases op with
  | ack n i =>
    cases hz
    change (message o c now 3 2 (htons n) t >>= _) = _ at h
    cases hm : message o c now 3 2 (htons n) t with
    | none => rw [hm] at h; cases h
    | some t1 =>
      rw [hm] at h
      cases h
      obtain ⟨base, h1, h2⟩ := message_last hc now g hi 3 2 (htons n) (by decide) (by rw [htons_eq]; rfl) (by decide) hm
      rw [htons_eq] at h1 h2
      exact ⟨base, by rw [sched_bytes]; exact h1, h2⟩
  | challenge n =>
    cases hz
    change (message o c now 18 8 n t >>= _) = _ at h
    cases hm : message o c now 18 8 n t with
    | none => rw [hm] at h; cases h
    | some t1 =>
      rw [hm] at h
      cases h
      obtain ⟨base, h1, h2⟩ := message_last hc now g hi 18 8 n (by decide) hop (by decide) hm
      exact ⟨base, by unfold scheduleFlushNow; rw [sched_bytes]; exact h1, h2⟩
  | reply n =>
    cases hz
    change (message o c now 19 n.length n t >>= _) = _ at h
    cases hm : message o c now 19 n.length n t with
    | none => rw [hm] at h; cases h
    | some t1 =>
      rw [hm] at h
      cases h
      obtain ⟨base, h1, h2⟩ := message_last hc now g hi 19 n.length n (by decide) rfl hop hm
      exact ⟨base, by unfold scheduleFlushNow; rw [sched_bytes]; exact h1, h2⟩
  | ihu r i ad rtt =>
    cases hz
    have ha : ad.length = 16 := hop.2.2.1
    change bufferIhu o c now r i ad rtt t = _ at h
    unfold bufferIhu at h
    refine message_last hc now g hi 5 _ _ (by decide) ?_ ?_ h
    · simp only [List.length_append, htons_eq, be16_length, htonl_eq]
      cases rtt with
      | none => split <;> simp [ha, rttSubTlv]
      | some p => split <;> simp [ha, be32_length, htonl_eq, rttSubTlv]
    · split <;> split <;> omega
  | hello => cases hz
  | update => cases hz
  | retraction => cases hz
  | request => cases hz
  | seqnoRequest => cases hz
  | ensure => cases hz
  | flush => cases hz

theorem run_append (o : Orc) (a b : List Act) (l l' : Link) (h : l.run o (a ++ b) = some l') :
    ∃ l1, l.run o a = some l1 ∧ l1.run o b = some l' := by
  induction a generalizing l with
  | nil => exact ⟨l, rfl, h⟩
  | cons x xs ih =>
    rw [List.cons_append] at h
    unfold Link.run at h
    cases hx : l.step o x.c x.now x.i x.op with
    | none => rw [hx] at h; cases h
    | some l2 =>
      rw [hx] at h
      obtain ⟨l1, h1, h2⟩ := ih l2 h
      exact ⟨l1, by unfold Link.run; rw [hx]; exact h1, h2⟩

theorem run_good {a tf o} {acts : List Act} {l l' : Link} (hs : Steady a tf o acts) (hf : FreshLink l) (h : l.run o acts = some l') :
    ∃ tss, LGood a tf l' tss := by
  obtain ⟨l1, tss, h1, h2, _⟩ := run_ind (a := a) (tf := tf) (o := o) (fun _ => True) (fun _ => True)
    (fun _ _ _ _ _ _ _ _ _ _ _ _ _ _ _ => trivial) acts l (fun _ => []) hs (fun _ _ => trivial) (Spec.FreshLink.good hf) trivial
  rw [h] at h1
  cases h1
  exact ⟨tss, h2⟩

theorem Spec.Steady.append {a tf o} {xs ys : List Act} (h : Steady a tf o (xs ++ ys)) : Steady a tf o xs ∧ Steady a tf o ys :=
  ⟨⟨h.1, fun x hx => h.2 x (List.mem_append_left _ hx)⟩, h.1, fun x hx => h.2 x (List.mem_append_right _ hx)⟩

theorem run_waiting {a tf o} {acts1 acts2 : List Act} {x : Act} {l l1 l2 : Link} (hf : FreshLink l)
    (hs : Steady a tf o (acts1 ++ x :: acts2)) (h1 : l.run o (acts1 ++ [x]) = some l1) (h2 : l1.run o acts2 = some l2)
    (z : Tlv) (hz : written x.op = some z) : Waiting z x.i (sentOn l1 x.i) l2 := by
  obtain ⟨l0, h3, h4⟩ := run_append o _ _ _ _ h1
  obtain ⟨hs1, hs2⟩ := Spec.Steady.append hs
  obtain ⟨hx, hs3⟩ := Spec.Steady.head hs2
  obtain ⟨tss, g⟩ := run_good hs1 hf h3
  obtain ⟨l1', ts', ps, r1, r2, r3, r4, r5, r7, r6⟩ := step_ok x hx g
  unfold Link.run at h4
  rw [r1] at h4
  cases h4
  obtain ⟨e1, e2, e3, e4, e5⟩ := hx.2 x (by simp)
  have hc : Circ a tf o x.c := ⟨e1, e2, e3, hx.1, e4⟩
  unfold Link.step at r1
  cases hr : x.op.run o x.c x.now (l0.tx x.i) with
  | none => rw [hr] at r1; cases r1
  | some t' =>
    rw [hr] at r1
    cases r1
    obtain ⟨base, b1, b2⟩ := op_last hc x.now (t := l0.tx x.i) (g.good x.i) g.idx x.op e5 hr z hz
    have gg := r2.good x.i
    have hb : t'.buf.bytes = encAll ts' := by
      have := gg.bytes
      simpa using this
    have ho := gg.ok
    simp only [if_true] at ho
    have := encAll_inj ts' (base ++ [z]) ho b2 (by rw [← hb, b1])
    refine run_keep z ?_ x.i _ acts2 _ l2 _ hs3 r2 h2 (.inl ⟨rfl, ?_⟩)
    · intro b hb
      subst hb
      cases hop : x.op <;> rw [hop] at hz <;> simp [written] at hz
    · simp only [if_true]
      rw [this]
      simp

/-! ### Deadlines -/

theorem roughly_le (r : Nat) (v : Int) (hv : 0 ≤ v) : 0 ≤ roughly r v ∧ 4 * roughly r v ≤ 5 * v := by
  by_cases h : v ≤ 1
  · rw [C02_roughly_small r v hv h]; omega
  · have := C02_roughly_bounds r v (by omega)
    omega

/-- The timeout after scheduling. -/
theorem sched_timeout (o : Orc) (now : Timeval) (ms : Int) (t : Tx) (hn : TvOk now) (h0 : TvOk t.buf.timeout) (hms : 0 ≤ ms)
    (hmax : ms ≤ 2000000000) (hpos : 0 < now.sec) :
    TvOk (scheduleFlushMs o now ms t).buf.timeout ∧ (scheduleFlushMs o now ms t).buf.timeout.sec ≠ 0 ∧
    4 * (micros (scheduleFlushMs o now ms t).buf.timeout - micros now) ≤ 5000 * ms ∧
    (t.buf.timeout.sec ≠ 0 → (scheduleFlushMs o now ms t).buf.timeout = t.buf.timeout ∨
      (micros t.buf.timeout ≤ micros now ∧ (scheduleFlushMs o now ms t).buf.timeout = now) ∨
      (micros now < micros t.buf.timeout ∧ t.buf.timeout.sec - now.sec ≤ 2000000 ∧
        4 * (micros (scheduleFlushMs o now ms t).buf.timeout - micros now) < 5 * (micros t.buf.timeout - micros now) + 5000) ∨
      2000000 < t.buf.timeout.sec - now.sec) := by
  have hm := C03_minus_msec t.buf.timeout now h0 hn
  unfold scheduleFlushMs
  split
  · next h =>
    refine ⟨h0, h.1, ?_, fun _ => .inl rfl⟩
    have h2 := h.2
    by_cases hle : micros t.buf.timeout ≤ micros now
    · omega
    · by_cases h3 : t.buf.timeout.sec - now.sec ≤ 2000000
      · have := (hm.2.1 (by omega) h3).1
        omega
      · have := hm.2.2.1 (by omega)
        omega
  · next h =>
    obtain ⟨r1, r2⟩ := roughly_le (o.rnd t.rnds) ms hms
    obtain ⟨a1, a2⟩ := C03_add_msec_exact now (roughly (o.rnd t.rnds) ms) hn r1
    have hT : (setTimeout now (o.rnd t.rnds) ms) = timevalAddMsec now (roughly (o.rnd t.rnds) ms) := rfl
    refine ⟨a2, ?_, ?_, ?_⟩
    · show (setTimeout now (o.rnd t.rnds) ms).sec ≠ 0
      rw [hT]
      unfold TvOk at a2 hn
      unfold micros at a1
      omega
    · show 4 * (micros (setTimeout now (o.rnd t.rnds) ms) - micros now) ≤ _
      rw [hT, a1]
      omega
    · intro hne
      have hge : ms ≤ (timevalMinusMsec t.buf.timeout now : Int) := by
        by_cases h2 : (timevalMinusMsec t.buf.timeout now : Int) < ms
        · exact absurd ⟨hne, h2⟩ h
        · omega
      refine .inr ?_
      show _ ∨ _ ∨ _
      by_cases hle : micros t.buf.timeout ≤ micros now
      · refine .inl ⟨hle, ?_⟩
        have := hm.1 hle
        have hz : ms = 0 := by omega
        show setTimeout now (o.rnd t.rnds) ms = now
        rw [hT, hz, C02_roughly_small _ 0 (by omega) (by omega)]
        unfold timevalAddMsec
        unfold TvOk at hn
        simp [hn.2]
      · by_cases h3 : t.buf.timeout.sec - now.sec ≤ 2000000
        · refine .inr (.inl ⟨by omega, h3, ?_⟩)
          have := (hm.2.1 (by omega) h3).2
          show 4 * (micros (setTimeout now (o.rnd t.rnds) ms) - micros now) < _
          rw [hT, a1]
          omega
        · exact .inr (.inr (by omega))

/-- Timeouts stay normalised. -/
def Tv (t r : Tx) : Prop := TvOk t.buf.timeout → TvOk r.buf.timeout

theorem Tv.refl (t : Tx) : Tv t t := fun h => h
theorem Tv.trans {t r s : Tx} (h : Tv t r) (h' : Tv r s) : Tv t s := fun x => h' (h x)

theorem put_tv (t : Tx) (l : Bytes) : AllRes (fun b => ∀ t' : Tx, t'.buf.timeout = b.timeout → Tv t t') (t.buf.put l) := by
  intro b hb
  unfold Buf.put at hb
  split at hb
  · cases hb
    intro t' h h0
    rw [h]; exact h0
  · cases hb

theorem addPc_tv (o : Orc) (c : SIf) (t : Tx) : AllRes (Tv t) (addPc o c t) := by
  unfold addPc sendPc
  split
  · split
    · exact .some (Tv.refl _)
    · simp only []
      split
      · exact .some fun h => h
      · next t1 h1 =>
        have hs : Tv t t1 := by
          split at h1
          · split at h1
            · cases h1
            · cases h1; exact fun h => h
          · cases h1; exact fun h => h
        exact .bindWith (put_tv t1 _) (fun b hb => .pure (hs.trans (hb _ rfl)))
  · exact .some (Tv.refl _)

theorem fillRtt_tv (c : SIf) (now : Timeval) (b : Buf) : AllRes (fun b' => b'.timeout = b.timeout) (fillRtt c now b) := by
  unfold fillRtt
  split
  · refine .bind fun x => .bind fun y => ?_
    split
    · split
      · exact .pure rfl
      · intro r hr; cases hr
    · exact .pure rfl
  · exact .some rfl

theorem flushbuf_tv (o : Orc) (c : SIf) (now : Timeval) (t : Tx) : AllRes (Tv t) (flushbuf o c now t) := by
  have h00 : TvOk ⟨0, 0⟩ := by unfold TvOk; decide
  unfold flushbuf
  split
  · intro r hr; cases hr
  · split
    · refine .bindWith (addPc_tv o c t) fun t1 h1 => ?_
      refine .bindWith (fillRtt_tv c now t1.buf) fun b hb => ?_
      refine .bind fun r => ?_
      split
      · exact .pure (h1.trans (fun h => by rw [← hb] at h; exact h))
      · exact .pure fun _ => h00
    · exact .pure fun _ => h00

theorem ensure_tv (o : Orc) (c : SIf) (now : Timeval) (n : Nat) (t : Tx) : AllRes (Tv t) (ensureSpace o c now n t) := by
  unfold ensureSpace
  simp only []
  generalize (if c.key.isSome = true then n + hmacSpace else n) = m
  split
  · exact flushbuf_tv o c now t
  · exact .some (Tv.refl _)

theorem jitter_bounds (r fi : Nat) (u : Bool) : 0 ≤ jitter r fi u ∧ jitter r fi u ≤ 2000000000 := by
  unfold jitter
  have := roughly_le r (((if u = true then min fi 20 else min fi 2000) / 2 : Nat) : Int) (by omega)
  have h2 : (if u = true then min fi 20 else min fi 2000) ≤ 2000 := by split <;> omega
  omega

theorem message_tv (o : Orc) (c : SIf) (now : Timeval) (hn : TvOk now) (hp : 0 < now.sec) (ty len : Nat) (body : Bytes) (t : Tx) :
    AllRes (Tv t) (message o c now ty len body t) := by
  unfold message startMessage
  refine .bindWith (Q := Tv t) (.bindWith (ensure_tv o c now _ t) fun t1 h1 =>
    .bindWith (put_tv t1 _) fun b hb => .pure (h1.trans (hb _ rfl))) fun t1 h1 => ?_
  refine .bindWith (put_tv t1 _) fun b hb => ?_
  intro r hr
  unfold endMessage at hr
  split at hr
  · cases hr
    refine h1.trans ((hb { t1 with buf := b } rfl).trans fun h => ?_)
    unfold scheduleFlush
    obtain ⟨j1, j2⟩ := jitter_bounds (o.rnd t1.rnds) b.flushInterval false
    exact (sched_timeout o now _ { t1 with buf := b, rnds := t1.rnds + 1 } hn h j1 j2 hp).1
  · cases hr

theorem ack_timeout (o : Orc) (c : SIf) (now : Timeval) (hn : TvOk now) (hp : 0 < now.sec) (n i : Nat) (hi : i < 65536)
    (t t' : Tx) (h0 : TvOk t.buf.timeout) (h : (Snd.ack n i).run o c now t = some t') :
    TvOk t'.buf.timeout ∧ t'.buf.timeout.sec ≠ 0 ∧ micros t'.buf.timeout ≤ micros now + 9375 * i := by
  change (message o c now 3 2 (htons n) t >>= _) = _ at h
  cases hm : message o c now 3 2 (htons n) t with
  | none => rw [hm] at h; cases h
  | some t1 =>
    rw [hm] at h
    cases h
    have h1 := message_tv o c now hn hp _ _ _ t t1 hm h0
    obtain ⟨r1, r2⟩ := roughly_le (o.rnd t1.rnds) ((i * 6 : Nat) : Int) (by omega)
    have := sched_timeout o now (roughly (o.rnd t1.rnds) ((i * 6 : Nat) : Int)) { t1 with rnds := t1.rnds + 1 } hn h1 r1 (by omega) hp
    refine ⟨this.1, this.2.1, ?_⟩
    omega

end Babel
