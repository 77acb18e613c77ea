import Verif.Lemmas.Buffer10
/-
C10-C13 and C17: the send buffers.
-/
set_option linter.unusedSimpArgs false
set_option linter.unusedVariables false
namespace Babel
open Spec

namespace DemoBuf

def key : Key := ⟨false, fun _ _ _ _ => some (List.replicate 32 7)⟩
def c : SIf where
  up := true
  key := some key
  ll := [[0xfe, 0x80, 0, 0, 0, 0, 0, 0, 0, 0, 0, 0, 0, 0, 0, 1]]
  timestamps := true
  rfc6126 := false
  v4viav6 := true
  probe := false
  ipv4 := some [192, 0, 2, 1]
  updateInterval := 16000
  filter := fun _ _ => 0
def o : Orc := ⟨fun n => some [1, 2, 3, 4, 5, 6, 7, UInt8.ofNat n], fun n => n⟩
def l : Link := { bufs := fun i => { dst := 0xff :: List.replicate 15 1, size := 460, flushInterval := 4000 } }
def id1 : Bytes := [1, 2, 3, 4, 5, 6, 7, 8]
def p6 : PKey := ⟨[0x20, 1, 0xd, 0xb8, 0, 1, 0, 0, 0, 0, 0, 0, 0, 0, 0, 0], 48, zeroes16, 0⟩
def q6 : PKey := ⟨[0x20, 1, 0xd, 0xb8, 0, 1, 0, 9, 0, 0, 0, 0, 0, 0, 0, 0], 64,
  [0x20, 1, 0xd, 0xb8, 0, 2, 0, 0, 0, 0, 0, 0, 0, 0, 0, 0], 48⟩
def r4 : PKey := ⟨[0, 0, 0, 0, 0, 0, 0, 0, 0, 0, 0xff, 0xff, 10, 0, 0, 0], 104, v4prefix, 96⟩
def at_ (i : Nat) (op : Snd) : Act := ⟨c, ⟨1000, 0⟩, i, op⟩
def acts : List Act :=
  [at_ 0 (.hello 17 400 false false), at_ 0 (.ihu 96 1200 (c.ll.headD []) (some (5, 6))), at_ 0 (.update id1 p6 3 100),
   at_ 0 (.update id1 q6 4 200), at_ 1 (.ack 77 100), at_ 0 (.update id1 r4 5 300), at_ 0 (.retraction 6),
   at_ 0 (.update id1 q6 7 65535), at_ 0 .flush, at_ 0 (.hello 18 400 false false), at_ 1 .flush,
   at_ 0 (.seqnoRequest p6 9 id1 127)]
def e : PEnv where
  sender := [0xfe, 0x80, 0, 0, 0, 0, 0, 0, 0, 0, 0, 0, 0, 0, 0, 1]
  isOurs := fun _ => true
  v4viav6 := true


theorem fresh : FreshLink l := ⟨fun _ => ⟨by show 256 ≤ 460; decide, by show 460 < 65536; decide, rfl, rfl, rfl, rfl, rfl⟩, rfl, rfl, rfl⟩

theorem pfx_ok {p : Bytes} {n : Nat} (h : p.length = 16) (h' : n ≤ 128) (h'' : normalizePrefix p n = p) : PrefixOk p n := ⟨h, h', h''⟩

theorem p6_ok : KeyOk p6 := ⟨by unfold PrefixOk; decide +kernel, fun h => absurd h (by decide +kernel)⟩
theorem q6_ok : KeyOk q6 := ⟨by unfold PrefixOk; decide +kernel, fun _ => ⟨by unfold PrefixOk; decide +kernel, fun h => absurd h (by decide +kernel)⟩⟩
theorem r4_ok : KeyOk r4 := ⟨by unfold PrefixOk; decide +kernel, fun h => absurd h (by decide +kernel)⟩

theorem circ : c.key.isSome = true ∧ c.timestamps = true ∧ Signs c ∧ ∀ i, c.ipv4 = some i → i.length = 4 := by
  refine ⟨rfl, rfl, ?_, ?_⟩
  · intro k hk _
    cases hk
    exact ⟨by decide, fun s d h b => ⟨_, rfl, by decide⟩⟩
  · intro i hi; cases hi; rfl

theorem steady : Steady true true o acts := by
  refine ⟨fun n i h => by cases h; rfl, ?_⟩
  have : ∀ x ∈ acts, x.c = c ∧ SndOk x.op := by
    intro x hx
    simp only [acts, List.mem_cons, List.not_mem_nil, or_false] at hx
    rcases hx with h | h | h | h | h | h | h | h | h | h | h | h <;> subst h <;> refine ⟨rfl, ?_⟩
    · show _ < _; decide
    · refine ⟨by decide, by decide, by decide, ?_⟩
      intro t1 t2 h; cases h; decide
    · exact ⟨by decide, p6_ok, by decide, by decide⟩
    · exact ⟨by decide, q6_ok, by decide, by decide⟩
    · exact ⟨by decide, by decide⟩
    · exact ⟨by decide, r4_ok, by decide, by decide⟩
    · show _ < _; decide
    · exact ⟨by decide, q6_ok, by decide, by decide⟩
    · trivial
    · show _ < _; decide
    · trivial
    · exact ⟨p6_ok, by decide, by decide, by decide⟩
  intro x hx
  obtain ⟨h1, h2⟩ := this x hx
  rw [h1]
  exact ⟨circ.1, circ.2.1, circ.2.2.1, circ.2.2.2, h2⟩

end DemoBuf

/-! ### C12: the buffers do not overflow -/

/-- However messages are written to the buffers of an interface, nothing is read or written outside
them (which would be the outcome `none`), and they always hold a sequence of whole messages.  Every
packet consists of the header, whole messages and the trailer, and does not exceed the size of the
buffer by more than the header. -/
theorem C12_safe {a tf : Bool} {o : Orc} {acts : List Act} {l : Link} (hs : Steady a tf o acts) (hf : FreshLink l) :
    ∃ l', l.run o acts = some l' ∧
      (∀ i, ∃ ts, (l'.bufs i).bytes = encAll ts ∧ (∀ t ∈ ts, t.Ok) ∧ (encAll ts).length ≤ (l.bufs i).size) ∧
      ∀ p ∈ l'.out, ∃ x ∈ acts, x.i = p.1 ∧ p.2.length ≤ (l.bufs p.1).size + 4 ∧
        ∃ ts tr, ts ≠ [] ∧ (∀ t ∈ ts, t.Ok) ∧ p.2 = packet (encAll ts) tr ∧
          TrailerOk x.c (l.bufs p.1).dst (l.bufs p.1).size (encAll ts) tr := by
  obtain ⟨l', h1, h2, h3⟩ := run_packets hs hf
  refine ⟨l', h1, fun i => (h2 i).2.2, ?_⟩
  intro p hp
  obtain ⟨x, hx, hi, ts, tr, e0, e1, e2, e3, e4, e5⟩ := h3 p hp
  refine ⟨x, hx, hi, ?_, ts, tr, e0, e1, e2, e4⟩
  rw [e2]
  simp only [packet, List.length_cons, List.length_append, be16_length]
  simp only [] at e3
  omega

/-- With the IPv6 and UDP headers a packet fits the MTU (or 512 if that is larger): the buffer has
room for 52 bytes less. -/
theorem C12_mtu (g : Bytes) (mtu fi : Nat) (b : Buf) : 40 + 8 + ((b.up g mtu fi).size + 4) = max mtu 512 := by
  show 40 + 8 + ((if mtu < 512 then 512 else mtu) - 4 - 48 + 4) = _
  split <;> omega

open DemoBuf in
example : ((l.run o acts).map fun l => l.out.map fun p => (p.1, p.2.length)) = some [(0, 210), (1, 56)] := by
  decide +kernel

open DemoBuf in
example : ∃ l', l.run o acts = some l' ∧ ∀ p ∈ l'.out, p.2.length ≤ 464 := by
  obtain ⟨l', h1, _, h3⟩ := C12_safe steady fresh
  exact ⟨l', h1, fun p hp => by obtain ⟨x, _, _, h, _⟩ := h3 p hp; exact h⟩

/-- Without the hypothesis that packets can be signed the property is false: if the interface loses
its link-local address, buffers are no longer emptied (message.c:1146-1151), and messages are
written beyond the end. -/
theorem C12_unsigned_overflow :
    ∃ acts : List Act, (∀ x ∈ acts, SndOk x.op ∧ x.c = { DemoBuf.c with ll := [] }) ∧
      DemoBuf.l.run DemoBuf.o acts = none := by
  refine ⟨List.replicate 130 ⟨{ DemoBuf.c with ll := [] }, ⟨1000, 0⟩, 0, .ack 1 100⟩, ?_, ?_⟩
  · intro x hx
    rw [List.eq_of_mem_replicate hx]
    exact ⟨⟨by decide, by decide⟩, rfl⟩
  · decide +kernel

/-! ### C10: updates -/

theorem toldOn_updates {o : Orc} (e : PEnv) (i : Nat) : ∀ (acts : List Act) (l l' : Link), l.run o acts = some l' →
    (toldOn o e i l acts).filter isUpdate = announcements e i acts := by
  intro acts
  induction acts with
  | nil => intro l l' h; rfl
  | cons x xs ih =>
    intro l l' h
    unfold Link.run at h
    cases hx : l.step o x.c x.now x.i x.op with
    | none => rw [hx] at h; cases h
    | some l1 =>
      rw [hx] at h
      have := ih l1 l' h
      unfold toldOn announcements
      rw [hx]
      simp only [List.filter_append, List.flatMap_cons]
      rw [this]
      unfold announcements
      congr 1
      by_cases hi : x.i = i
      · rw [if_pos hi, if_pos hi]
        cases hop : x.op with
        | update id k s m =>
          simp only [told]
          split <;> rfl
        | retraction s => rfl
        | hello s i u f => simp only [told]; split <;> rfl
        | ihu r i a rtt => simp only [told]; split <;> rfl
        | request k =>
          cases k with
          | none => rfl
          | some k => simp only [told]; split <;> rfl
        | seqnoRequest k s id h => simp only [told]; split <;> rfl
        | ack n i => rfl
        | challenge n => rfl
        | reply n => rfl
        | ensure n => rfl
        | flush => rfl
      · rw [if_neg hi, if_neg hi]
        rfl

/-- The announcements and retractions that a receiver decodes from the packets sent from a buffer,
followed by those still in the buffer, are exactly those handed to the buffer, in this order. -/
theorem C10_updates {a tf : Bool} {o : Orc} {acts : List Act} {l l' : Link} (hs : Steady a tf o acts) (hf : FreshLink l)
    (hr : l.run o acts = some l') (e : PEnv) (he : linklocal e.sender) (i : Nat) :
    ((sentOn l' i).flatMap (heard e) ++ unsent e l' i).filter isUpdate = announcements e i acts := by
  have hg : LGood a tf l (fun _ => []) := Spec.FreshLink.good hf
  rw [run_told e he i acts l l' _ hs hg hr, hg.unsent e he i]
  have : sentOn l i = [] := by unfold sentOn; rw [hf.2.2.2]; rfl
  rw [this]
  exact toldOn_updates e i acts l l' hr

open DemoBuf in
/-- What is announced in the example, including next hops and an update with the default prefix
compressed away. -/
example : announcements e 0 acts =
    [.update (some id1) p6 3 100 1600 (some e.sender), .update (some id1) q6 4 200 1600 (some e.sender),
     .update (some id1) r4 5 300 1600 (some (v4tov6 [192, 0, 2, 1])), .retractAll,
     .update (some id1) q6 7 65535 1600 (some e.sender)] := by decide +kernel

open DemoBuf in
example : ∃ l', l.run o acts = some l' ∧
    ((sentOn l' 0).flatMap (heard e) ++ unsent e l' 0).filter isUpdate = announcements e 0 acts := by
  obtain ⟨l', h, _⟩ := C12_safe steady fresh
  exact ⟨l', h, C10_updates steady fresh h e (by decide) 0⟩

/-- After the interface has gone down and up again the property is false: the buffer is emptied, but
it is still assumed that the receiver knows the router-id (interface.c:489-496, 279-318), so that
the update is lost. -/
theorem C10_updown_lost :
    ∃ (b : Buf) (t : Tx), (Snd.update DemoBuf.id1 DemoBuf.p6 3 100).run DemoBuf.o DemoBuf.c ⟨1000, 0⟩ (DemoBuf.l.tx 0) = some t ∧
      b = (t.buf.down).up t.buf.dst 1500 4000 ∧ b.bytes = [] ∧
      ∃ t2 t3, (Snd.update DemoBuf.id1 DemoBuf.p6 3 100).run DemoBuf.o DemoBuf.c ⟨1001, 0⟩ { t with buf := b } = some t2 ∧
        Snd.flush.run DemoBuf.o DemoBuf.c ⟨1001, 0⟩ t2 = some t3 ∧ t3.out.length = 1 ∧
        t3.out.flatMap (heard DemoBuf.e) = [] := by
  refine ⟨_, _, rfl, rfl, rfl, _, _, rfl, rfl, ?_, ?_⟩
  · decide +kernel
  · decide +kernel

/-! ### C11: the other messages -/

/-- What a receiver decodes from the packets sent from a buffer, followed by what is still in the
buffer, is exactly what the operations on this buffer say, in this order. -/
theorem C11_messages {a tf : Bool} {o : Orc} {acts : List Act} {l l' : Link} (hs : Steady a tf o acts) (hf : FreshLink l)
    (hr : l.run o acts = some l') (e : PEnv) (he : linklocal e.sender) (i : Nat) :
    (sentOn l' i).flatMap (heard e) ++ unsent e l' i = toldOn o e i l acts := by
  have hg : LGood a tf l (fun _ => []) := Spec.FreshLink.good hf
  rw [run_told e he i acts l l' _ hs hg hr, hg.unsent e he i]
  have : sentOn l i = [] := by unfold sentOn; rw [hf.2.2.2]; rfl
  rw [this]
  rfl

open DemoBuf in
example : toldOn o e 0 l acts =
    [.hello false 17 400 none, .ihu 96 1200,
     .update (some id1) p6 3 100 1600 (some e.sender), .update (some id1) q6 4 200 1600 (some e.sender),
     .update (some id1) r4 5 300 1600 (some (v4tov6 [192, 0, 2, 1])), .retractAll,
     .update (some id1) q6 7 65535 1600 (some e.sender), .hello false 18 400 none,
     .seqnoRequest p6 127 9 id1] := by decide +kernel

/-- After a flush nothing is left in the buffer. -/
theorem C11_flushed {a tf : Bool} {o : Orc} {acts : List Act} {l l' : Link} {x : Act} (hs : Steady a tf o (acts ++ [x])) (hf : FreshLink l)
    (hx : x.op = .flush) (hr : l.run o (acts ++ [x]) = some l') (e : PEnv) (he : linklocal e.sender) :
    (l'.bufs x.i).bytes = [] ∧ (sentOn l' x.i).flatMap (heard e) = toldOn o e x.i l (acts ++ [x]) := by
  have hb : (l'.bufs x.i).bytes = [] := by
    obtain ⟨l0, h3, h4⟩ := run_append o _ _ _ _ hr
    obtain ⟨hs1, hs2⟩ := Spec.Steady.append hs
    obtain ⟨tss, g⟩ := run_good hs1 hf h3
    unfold Link.run Link.step at h4
    obtain ⟨e1, e2, e3, e4, e5⟩ := hs2.2 x (by simp)
    have hc : Circ a tf o x.c := ⟨e1, e2, e3, hs.1, e4⟩
    obtain ⟨t', f1, f2⟩ := flush_ok hc x.now (t := l0.tx x.i) (g.good x.i) g.idx
    rw [hx] at h4
    rw [show Snd.flush.run o x.c x.now (l0.tx x.i) = some t' from f1] at h4
    cases h4
    simp only [if_true]
    cases f2 with
    | empty h => rfl
    | sent => rfl
  refine ⟨hb, ?_⟩
  have h1 := C11_messages hs hf hr e he x.i
  have h2 : unsent e l' x.i = [] := by
    unfold unsent
    rw [hb]
    have := decode_many e [] [] [] he (by simp) (.inl rfl) (by simp [encAll])
    unfold decode at this
    simp only [List.append_nil] at this
    unfold heard
    rw [show packet [] [] = packet (encAll []) [] from rfl, this]
    rfl
  rw [h2, List.append_nil] at h1
  exact h1

/-- A packet contains at most one hello; on an interface with timestamps it ends with the time at
which the packet is sent. -/
theorem C11_hello_time {a tf : Bool} {o : Orc} {acts : List Act} {l l' : Link} (hs : Steady a tf o acts) (hf : FreshLink l)
    (hr : l.run o acts = some l') (p : Nat × Bytes) (hp : p ∈ l'.out) :
    ∃ x ∈ acts, x.i = p.1 ∧ ∃ ts tr, (∀ t ∈ ts, t.Ok) ∧ p.2 = packet (encAll ts) tr ∧ HelloAt tf x.now ts := by
  obtain ⟨l1, h1, _, h3⟩ := run_packets hs hf
  rw [hr] at h1
  cases h1
  obtain ⟨x, hx, hi, ts, tr, e0, e1, e2, e3, e4, e5⟩ := h3 p hp
  exact ⟨x, hx, hi, ts, tr, e1, e2, e5⟩

/-- An acknowledgment stays in the buffer until it is sent. -/
theorem C11_ack {a tf o} {acts1 acts2 : List Act} {x : Act} {l l1 l2 : Link} (hf : FreshLink l)
    (hs : Steady a tf o (acts1 ++ x :: acts2)) (h1 : l.run o (acts1 ++ [x]) = some l1) (h2 : l1.run o acts2 = some l2)
    (nonce interval : Nat) (hx : x.op = .ack nonce interval) :
    Waiting (.tlv 3 (be16 nonce)) x.i (sentOn l1 x.i) l2 :=
  run_waiting hf hs h1 h2 _ (by rw [hx]; rfl)

/-- So does a challenge request. -/
theorem C11_challenge {a tf o} {acts1 acts2 : List Act} {x : Act} {l l1 l2 : Link} (hf : FreshLink l)
    (hs : Steady a tf o (acts1 ++ x :: acts2)) (h1 : l.run o (acts1 ++ [x]) = some l1) (h2 : l1.run o acts2 = some l2)
    (nonce : Bytes) (hx : x.op = .challenge nonce) :
    Waiting (.tlv 18 nonce) x.i (sentOn l1 x.i) l2 :=
  run_waiting hf hs h1 h2 _ (by rw [hx]; rfl)

/-- So does the reply to a challenge. -/
theorem C11_reply {a tf o} {acts1 acts2 : List Act} {x : Act} {l l1 l2 : Link} (hf : FreshLink l)
    (hs : Steady a tf o (acts1 ++ x :: acts2)) (h1 : l.run o (acts1 ++ [x]) = some l1) (h2 : l1.run o acts2 = some l2)
    (nonce : Bytes) (hx : x.op = .reply nonce) :
    Waiting (.tlv 19 nonce) x.i (sentOn l1 x.i) l2 :=
  run_waiting hf hs h1 h2 _ (by rw [hx]; rfl)

/-- So does an IHU, from which its addressee also learns the times it carries. -/
theorem C11_ihu_times {a tf o} {acts1 acts2 : List Act} {x : Act} {l l1 l2 : Link} (hf : FreshLink l)
    (hs : Steady a tf o (acts1 ++ x :: acts2)) (h1 : l.run o (acts1 ++ [x]) = some l1) (h2 : l1.run o acts2 = some l2)
    (r i : Nat) (addr : Bytes) (rtt : Option (Nat × Nat)) (hx : x.op = .ihu r i addr rtt) :
    ∃ body, Waiting (.tlv 5 body) x.i (sentOn l1 x.i) l2 ∧ ∀ e s, e.isOurs addr →
      runTlv e s 5 body = some ({ s with echo := rtt.getD s.echo }, [.ihu r i]) := by
  refine ⟨_, run_waiting hf hs h1 h2 _ (by rw [hx]; rfl), ?_⟩
  intro e s ho
  obtain ⟨_, _, _, _, h5⟩ := hs.2 x (by simp)
  rw [hx] at h5
  have := ihu_body r i addr rtt h5.1 h5.2.1 h5.2.2.1 h5.2.2.2 e s
  rw [if_pos ho] at this
  rw [← this]
  exact runTlv_one e s 5 _

open DemoBuf in
/-- An acknowledgment is in the first packet sent from its buffer. -/
example : ∃ l1 l2, l.run o (acts.take 5) = some l1 ∧ l1.run o (acts.drop 5) = some l2 ∧ sentOn l1 1 = [] ∧
    (sentOn l2 1).length = 1 ∧ Waiting (.tlv 3 (be16 77)) 1 (sentOn l1 1) l2 := by
  obtain ⟨l2, h, _⟩ := C12_safe steady fresh
  obtain ⟨l1, h1, h2⟩ := run_append o (acts.take 5) (acts.drop 5) l l2 (by rw [List.take_append_drop]; exact h)
  refine ⟨l1, l2, h1, h2, ?_, ?_, C11_ack (acts1 := acts.take 4) (x := at_ 1 (.ack 77 100)) (acts2 := acts.drop 5) fresh steady h1 h2 77 100 rfl⟩
  · have : ((l.run o (acts.take 5)).map fun l => sentOn l 1) = some [] := by decide +kernel
    rw [h1] at this; simpa using this
  · have : ((l.run o acts).map fun l => (sentOn l 1).length) = some 1 := by decide +kernel
    rw [h] at this; simpa using this

/-! ### C13: deadlines of acknowledgments -/

/-- When an acknowledgment with interval `i` (in centiseconds) has been written, the buffer is due
within this interval, whatever it contained. -/
theorem C13_scheduled_partial (o : Orc) (c : SIf) (now : Timeval) (hn : TvOk now) (hp : 0 < now.sec) (n i : Nat) (hi : i < 65536)
    (t t' : Tx) (h0 : TvOk t.buf.timeout) (h : (Snd.ack n i).run o c now t = some t') :
    t'.buf.timeout.sec ≠ 0 ∧ micros t'.buf.timeout ≤ micros now + 10000 * i := by
  have := ack_timeout o c now hn hp n i hi t t' h0 h
  exact ⟨this.2.1, by omega⟩

/-- What is written later keeps the deadline or, if the buffer is not yet due, postpones it by less
than a quarter of the time left (and 1.25 ms, due to rounding). -/
theorem C13_postponed_partial (o : Orc) (now : Timeval) (hn : TvOk now) (hp : 0 < now.sec) (t : Tx) (h0 : TvOk t.buf.timeout)
    (hset : t.buf.timeout.sec ≠ 0) (hmax : t.buf.timeout.sec - now.sec ≤ 2000000) :
    (scheduleFlush o now t).buf.timeout = t.buf.timeout ∨
    micros (scheduleFlush o now t).buf.timeout ≤ micros now ∨
    4 * (micros (scheduleFlush o now t).buf.timeout - micros t.buf.timeout) <
      (micros t.buf.timeout - micros now) + 5000 := by
  obtain ⟨j1, j2⟩ := jitter_bounds (o.rnd t.rnds) t.buf.flushInterval false
  have := (sched_timeout o now (jitter (o.rnd t.rnds) t.buf.flushInterval false) { t with rnds := t.rnds + 1 } hn h0 j1 j2 hp).2.2.2 hset
  rcases this with h | ⟨h1, h2⟩ | ⟨h1, h2, h3⟩ | h
  · exact .inl h
  · refine .inr (.inl ?_)
    show micros (scheduleFlushMs o now _ _).buf.timeout ≤ _
    rw [h2]
    omega
  · refine .inr (.inr ?_)
    show 4 * (micros (scheduleFlushMs o now _ _).buf.timeout - _) < _
    simp only [] at h3
    omega
  · simp only [] at h; omega

/-- The full property is false: writing another message can move the deadline beyond the
interval. -/
theorem C13_postponed_beyond :
    ∃ (o : Orc) (t1 t2 : Tx),
      (Snd.ack 1 100).run o DemoBuf.c ⟨1000, 0⟩ (DemoBuf.l.tx 1) = some t1 ∧
      (Snd.ihu 96 1200 DemoBuf.e.sender none).run o DemoBuf.c ⟨1000, 0⟩ t1 = some t2 ∧ t2.out = [] ∧
      micros t1.buf.timeout ≤ micros ⟨1000, 0⟩ + 10000 * 100 ∧
      micros ⟨1000, 0⟩ + 10000 * 100 < micros t2.buf.timeout := by
  refine ⟨⟨fun n => some [1, 2, 3, 4, 5, 6, 7, UInt8.ofNat n], fun n => [499, 623, 299, 373, 180, 464].getD n 0⟩, _, _, rfl, rfl, ?_, ?_, ?_⟩
  · decide +kernel
  · decide +kernel
  · decide +kernel

/-! ### C17: counters -/

/-- No two packets carry the same counter and index, if the random indices are different. -/
theorem C17_distinct {a tf : Bool} {o : Orc} {acts : List Act} {l l' : Link} (hs : Steady a tf o acts) (hf : FreshLink l)
    (hr : l.run o acts = some l') (hinj : ∀ m n i, o.rand m = some i → o.rand n = some i → m = n) :
    l'.out.Pairwise fun p q => ∀ n index, Carries p.2 n index → ¬ Carries q.2 n index := by
  obtain ⟨l1, h1, h2⟩ := run_counters hs hf hinj
  rw [hr] at h1
  cases h1
  exact h2.distinct

/-- If there is a key, and random numbers can be obtained, every packet carries a counter. -/
theorem C17_counter {a tf : Bool} {o : Orc} {acts : List Act} {l l' : Link} (hs : Steady a tf o acts) (hf : FreshLink l)
    (hr : l.run o acts = some l') (hrand : ∀ n, ∃ i, o.rand n = some i)
    (hk : ∀ x ∈ acts, ∃ k, x.c.key = some k ∧ k.none = false) (p : Nat × Bytes) (hp : p ∈ l'.out) :
    ∃ n index, Carries p.2 n index := by
  obtain ⟨l1, h1, h2⟩ := run_carries hs hf hrand hk
  rw [hr] at h1
  cases h1
  exact h2 p hp

/-- A packet carries at most one counter. -/
theorem C17_unique (p : Bytes) (n m : Nat) (i j : Bytes) (h : Carries p n i) (h' : Carries p m j) : n = m ∧ i = j := by
  obtain ⟨ts, tr, rfl, h1, h2, h3, h4⟩ := h
  exact (((carries_one h4 h1 h3 h2 m j).1 h')).imp Eq.symm Eq.symm

open DemoBuf in
/-- Two packets on the two buffers of the example: consecutive counters. -/
example : ∃ l', l.run o acts = some l' ∧ l'.out.length = 2 ∧
    (∀ p ∈ l'.out, ∃ n index, Carries p.2 n index) ∧ l'.pc = 2 := by
  obtain ⟨l', h, _⟩ := C12_safe steady fresh
  refine ⟨l', h, ?_, C17_counter steady fresh h (fun n => ⟨_, rfl⟩) ?_, ?_⟩
  · have : ((l.run o acts).map fun l => l.out.length) = some 2 := by decide +kernel
    rw [h] at this; simpa using this
  · intro x hx
    have : x.c = c := by
      simp only [acts, List.mem_cons, List.not_mem_nil, or_false] at hx
      rcases hx with h | h | h | h | h | h | h | h | h | h | h | h <;> subst h <;> rfl
    rw [this]
    exact ⟨key, rfl, rfl⟩
  · have : ((l.run o acts).map fun l => l.pc) = some 2 := by decide +kernel
    rw [h] at this; simpa using this

/-- Finding: if the random index cannot be drawn, the packet is sent without a counter
(message.c:1281-1283, 1141), and the receiver will ignore it. -/
theorem C17_no_random :
    ∃ t', Snd.flush.run ⟨fun _ => none, fun _ => 0⟩ DemoBuf.c ⟨1000, 0⟩
        { buf := { dst := [], size := 460, flushInterval := 4000, bytes := (Tlv.tlv 3 [0, 1]).enc } } = some t' ∧
      t'.out = [packet (encAll [.tlv 3 [0, 1]]) (Tlv.tlv 16 (List.replicate 32 7)).enc] := by
  refine ⟨_, rfl, ?_⟩
  decide +kernel

end Babel
