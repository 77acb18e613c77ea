import Verif.Lemmas.Buffer2
/-
Writing messages to a send buffer.
-/
set_option linter.unusedSimpArgs false
set_option linter.unusedVariables false
namespace Babel
open Spec

/-- What a receiver makes of the TLVs. -/
def its (e : PEnv) (s : PState) (ts : List Tlv) : List Item := (many e s ts).2.map untimed

theorem its_append (e : PEnv) (s : PState) (a b : List Tlv) :
    its e s (a ++ b) = its e s a ++ its e (many e s a).1 b := by
  simp [its, many_append]

theorem pair_be16 (a b : UInt8) : [a, b] = be16 (256 * a.toNat + b.toNat) ∧ 256 * a.toNat + b.toNat < 65536 := by
  have ha := a.toNat_lt
  have hb := b.toNat_lt
  refine ⟨?_, by omega⟩
  simp only [be16, List.cons.injEq, and_true]
  refine ⟨?_, ?_⟩ <;> apply UInt8.toNat_inj.1 <;> simp <;> omega

theorem six_be16 (f : Bytes) (h : f.length = 6) : ∃ x y z, f = be16 x ++ be16 y ++ be16 z ∧
    x < 65536 ∧ y < 65536 ∧ z < 65536 := by
  match f, h with
  | [a, b, c, d, i, j], _ =>
    refine ⟨_, _, _, ?_, (pair_be16 a b).2, (pair_be16 c d).2, (pair_be16 i j).2⟩
    rw [← (pair_be16 a b).1, ← (pair_be16 c d).1, ← (pair_be16 i j).1]
    rfl

theorem number_be32 (n : Nat) (h : n < 4294967296) (l : Bytes) : number 4 (be32 n ++ l) = n := by
  simp [number, be32, be16]; omega

theorem timeUs_lt (t : Timeval) : timeUs t < 4294967296 := by
  unfold timeUs; omega

/-- Hellos, with and without the time of emission. -/
theorem one_hello (e : PEnv) (s : PState) (f : Bytes) (hf : f.length = 6) (tf : Bool) (now : Timeval) :
    ∃ u q i, one e s 4 (f ++ stampPad tf) = (s, [.hello u q i none]) ∧
      one e s 4 (f ++ ([3, 4] ++ be32 (timeUs now))) = (flag true s, [.hello u q i (some (timeUs now))]) := by
  obtain ⟨x, y, z, rfl, hx, hy, hz⟩ := six_be16 f hf
  refine ⟨decide (32768 ≤ x), y, z, ?_, ?_⟩
  · have := (C50_hello e s x y z (stampPad tf) hx hy hz).1 (if tf then [.tlv 1 (be32 0)] else [])
      (by cases tf <;> exact ⟨rfl, by decide⟩)
      (by
        intro t b h h1
        cases tf with
        | false => simp at h
        | true =>
          simp only [if_true, List.mem_singleton, Tlv.tlv.injEq] at h
          rw [h.1] at h1
          exact absurd h1 (by decide))
    rw [runTlv_one] at this
    rw [Option.some.inj this]
    cases tf <;> simp [helloTime, bodies]
  · have := (C50_hello e s x y z ([3, 4] ++ be32 (timeUs now)) hx hy hz).1 [.tlv 3 (be32 (timeUs now))]
      ⟨rfl, by intro t h; rw [List.mem_singleton] at h; subst h; exact ⟨by decide, by simp [be32, be16]⟩⟩
      (by
        intro t b h h1
        simp only [List.mem_singleton, Tlv.tlv.injEq] at h
        rw [h.1] at h1
        exact absurd h1 (by decide))
    rw [runTlv_one] at this
    rw [Option.some.inj this]
    have e1 : helloTime [.tlv 3 (be32 (timeUs now))] = some (timeUs now) := by
      have e2 : bodies 3 [.tlv 3 (be32 (timeUs now))] = [be32 (timeUs now)] := by simp [bodies]
      have e3 := number_be32 (timeUs now) (timeUs_lt now) []
      rw [List.append_nil] at e3
      unfold helloTime
      rw [e2]
      simp [be32_length, e3]
    rw [e1]
    simp [flag]

theorem its_flag (x : Bool) (e : PEnv) (s : PState) (ts : List Tlv) (h : ∀ b, Tlv.tlv 4 b ∉ ts) :
    its e (flag x s) ts = its e s ts := by
  unfold its; rw [flag_many x e s ts h]

theorem its_other (e : PEnv) (s : PState) (ts : List Tlv) (h : ∀ x ∈ ts, ∃ b, x = Tlv.tlv 17 b) : its e s ts = [] := by
  induction ts generalizing s with
  | nil => rfl
  | cons t ts ih =>
    obtain ⟨b, hb⟩ := h t (by simp)
    subst hb
    have : one e s 17 b = (s, []) := by
      have := run_other e s 17 b (by decide)
      rw [runTlv_one] at this
      exact Option.some.inj this
    have ih' := ih s (fun x hx => h x (by simp [hx]))
    unfold its at ih' ⊢
    simp only [many, this, List.nil_append]
    exact ih'

theorem its_stamped {a tf : Bool} {b : Buf} {ts : List Tlv} (g : Good a tf b ts) (now : Timeval) (e : PEnv) :
    its e {} (ts.map (stampTlv tf now)) = its e {} ts := by
  rcases g.hello with ⟨h1, h2⟩ | ⟨ts1, f, ts2, h1, h2, h3, h4, h5⟩
  · rw [stamp_none h2]
  · cases tf with
    | false =>
      have : ts.map (stampTlv false now) = ts := by
        conv => rhs; rw [← List.map_id ts]
        exact List.map_congr_left fun x _ => stampTlv_off
      rw [this]
    | true =>
      have hs : stampTlv true now (.tlv 4 (f ++ stampPad true)) = .tlv 4 (f ++ ([3, 4] ++ be32 (timeUs now))) := by
        show Tlv.tlv 4 ((f ++ stampPad true).take 6 ++ _) = _
        rw [← h3, List.take_left]
      rw [h2, List.map_append, List.map_cons, stamp_none h4, stamp_none h5, hs, its_append, its_append]
      congr 1
      obtain ⟨u, q, i, o1, o2⟩ := one_hello e (many e {} ts1).1 f h3 true now
      have e1 := its_flag true e (many e {} ts1).1 ts2 h5
      unfold its at e1 ⊢
      simp only [many, o1, o2, List.map_append, e1]
      rfl

theorem stamped_ok {a tf : Bool} {b : Buf} {ts : List Tlv} (g : Good a tf b ts) (now : Timeval) :
    (∀ t ∈ ts.map (stampTlv tf now), t.Ok ∧ ∀ x, t ≠ .tlv 17 x) := by
  intro t ht
  rw [List.mem_map] at ht
  obtain ⟨t', h', rfl⟩ := ht
  cases t' with
  | pad1 => exact ⟨trivial, by intro x h; cases h⟩
  | tlv ty body =>
    by_cases h4 : ty = 4
    · subst h4
      cases tf with
      | false =>
        rw [stampTlv_off]
        exact ⟨g.ok _ h', by intro x h; cases h⟩
      | true =>
        show Tlv.Ok (.tlv 4 (body.take 6 ++ _)) ∧ ∀ x, Tlv.tlv 4 (body.take 6 ++ _) ≠ .tlv 17 x
        exact ⟨⟨by decide, by simp [be32, be16]; omega⟩, by intro x h; cases h⟩
    · rw [stampTlv_ne h4]
      exact ⟨g.ok _ h', by rintro x h; rw [h] at h'; exact g.nopc x h'⟩

/-- What a receiver hears of a packet is what it would have heard of the buffer. -/
theorem heard_sent {a tf : Bool} {b : Buf} {ts : List Tlv} (g : Good a tf b ts) (now : Timeval) (e : PEnv)
    (he : linklocal e.sender) (ex : List Tlv) (hex : ∀ x ∈ ex, x.Ok ∧ ∃ b, x = Tlv.tlv 17 b) (tr : Bytes)
    (hl : (encAll (ts.map (stampTlv tf now) ++ ex)).length < 65536) :
    heard e (packet (encAll (ts.map (stampTlv tf now) ++ ex)) tr) = its e {} ts := by
  have hok : ∀ t ∈ ts.map (stampTlv tf now) ++ ex, t.Ok := by
    intro t ht
    rcases List.mem_append.1 ht with h | h
    · exact (stamped_ok g now t h).1
    · exact (hex t h).1
  have := decode_many e _ [] tr he hok (.inl rfl) (by simpa using hl)
  unfold decode at this
  simp only [List.append_nil] at this
  unfold heard
  rw [this]
  show its e {} _ = _
  rw [its_append, its_other e _ ex (fun x hx => (hex x hx).2), List.append_nil, its_stamped g]

theorem heard_buf {a tf : Bool} {b : Buf} {ts : List Tlv} (g : Good a tf b ts) (e : PEnv)
    (he : linklocal e.sender) : heard e (packet b.bytes []) = its e {} ts := by
  have := decode_many e ts [] [] he g.ok (.inl rfl)
    (by have := g.room; have := g.hi; rw [← g.bytes]; simp; omega)
  unfold decode at this
  simp only [List.append_nil] at this
  unfold heard
  rw [g.bytes, this]
  rfl

/-- The buffer before writing: as it was, or just flushed. -/
def Ready (o : Orc) (c : SIf) (now : Timeval) (tf : Bool) (t : Tx) (ts : List Tlv) (t1 : Tx) (base : List Tlv) : Prop :=
  (t1 = t ∧ base = ts) ∨ (Flush1 o c now tf ts t t1 ∧ base = [])

theorem Ready.good {a tf o c now t ts t1 base} (h : Ready o c now tf t ts t1 base) (g : Good a tf t.buf ts)
    (hi : t.index.length = 8) :
    Good a tf t1.buf base ∧ t1.index.length = 8 ∧ t1.buf.size = t.buf.size := by
  rcases h with ⟨rfl, rfl⟩ | ⟨h, rfl⟩
  · exact ⟨g, hi, rfl⟩
  · cases h with
    | empty h => exact ⟨g.reset, hi, rfl⟩
    | sent tr ex pc ix dr h0 h1 h2 h3 h4 h5 => exact ⟨g.reset, h3, rfl⟩

theorem ensure_ok {a tf : Bool} {o : Orc} {c : SIf} (hc : Circ a tf o c) (now : Timeval) {t : Tx} {ts : List Tlv}
    (g : Good a tf t.buf ts) (hi : t.index.length = 8) (n : Nat) (hn : n ≤ 194) :
    ∃ t1 base, ensureSpace o c now n t = some t1 ∧ Ready o c now tf t ts t1 base ∧
      t1.buf.bytes.length + n + reserve a ≤ t1.buf.size := by
  have hsp : (if c.key.isSome = true then n + hmacSpace else n) = n + reserve a := by
    rw [hc.key]; unfold reserve hmacSpace
    cases a <;> rfl
  have hr : reserve a ≤ 62 := by unfold reserve; split <;> omega
  unfold ensureSpace
  simp only [hsp]
  by_cases h : ((t.buf.size : Int) - t.buf.bytes.length < (n + reserve a : Nat))
  · rw [if_pos h]
    obtain ⟨t', h1, h2⟩ := flush_ok hc now g hi
    refine ⟨t', [], h1, .inr ⟨h2, rfl⟩, ?_⟩
    have hg := Ready.good (.inr ⟨h2, rfl⟩ : Ready o c now tf t ts t' []) g hi
    have : t'.buf.bytes = [] := by rw [hg.1.bytes]; rfl
    rw [this]
    have := hg.1.lo
    simp
    omega
  · rw [if_neg h]
    exact ⟨t, ts, rfl, .inl ⟨rfl, rfl⟩, by omega⟩

/-- A buffer with one more TLV. -/
def addTlv (t : Tx) (x : Tlv) (T : Timeval) (R : Nat) : Tx :=
  { t with buf := { t.buf with bytes := t.buf.bytes ++ x.enc, timeout := T }, rnds := R }

theorem rd_enc (l : Bytes) (ty len : UInt8) (body : Bytes) :
    rd (l ++ (ty :: len :: body)) ((l ++ (ty :: len :: body)).length - body.length - 2) = some ty.toNat ∧
    rd (l ++ (ty :: len :: body)) ((l ++ (ty :: len :: body)).length - body.length - 1) = some len.toNat := by
  have h1 : (l ++ (ty :: len :: body)).length - body.length - 2 = l.length := by simp; omega
  have h2 : (l ++ (ty :: len :: body)).length - body.length - 1 = l.length + 1 := by simp; omega
  rw [h1, h2]
  refine ⟨?_, ?_⟩
  · have := rd_append_right l (ty :: len :: body) 0
    simpa using this
  · have := rd_append_right l (ty :: len :: body) 1
    simpa using this

theorem schedule_shape (o : Orc) (now : Timeval) (ms : Int) (t : Tx) :
    ∃ T R, scheduleFlushMs o now ms t = { t with buf := { t.buf with timeout := T }, rnds := R } := by
  unfold scheduleFlushMs
  split
  · exact ⟨t.buf.timeout, t.rnds, rfl⟩
  · exact ⟨_, _, rfl⟩

theorem end_ok (o : Orc) (now : Timeval) (t : Tx) (l : Bytes) (ty len : Nat) (body : Bytes) (hty : ty < 256)
    (hlen : body.length = len) (h255 : len ≤ 255) (hb : t.buf.bytes = l ++ (UInt8.ofNat ty :: UInt8.ofNat len :: body)) :
    ∃ T R, endMessage o now ty len t = some { t with buf := { t.buf with timeout := T }, rnds := R } := by
  unfold endMessage
  have := rd_enc l (UInt8.ofNat ty) (UInt8.ofNat len) body
  rw [← hb, hlen] at this
  rw [if_pos]
  · obtain ⟨T, R, h⟩ := schedule_shape o now (jitter (o.rnd t.rnds) t.buf.flushInterval false) { t with rnds := t.rnds + 1 }
    exact ⟨T, R, by unfold scheduleFlush; rw [h]⟩
  · refine ⟨?_, ?_, ?_⟩
    · rw [hb]; simp [hlen]
    · rw [this.1]; simp; omega
    · rw [this.2]; simp; omega

theorem start_fit {a tf : Bool} {o : Orc} {c : SIf} (hc : Circ a tf o c) (now : Timeval) (t : Tx) (ty len : Nat)
    (hfit : t.buf.bytes.length + (len + 2) + reserve a ≤ t.buf.size) :
    startMessage o c now ty len t =
      some { t with buf := { t.buf with bytes := t.buf.bytes ++ [UInt8.ofNat ty, UInt8.ofNat len] } } := by
  have hsp : (if c.key.isSome = true then (len + 2) + hmacSpace else (len + 2)) = (len + 2) + reserve a := by
    rw [hc.key]; unfold reserve hmacSpace
    cases a <;> rfl
  unfold startMessage ensureSpace
  simp only [hsp]
  rw [if_neg (by omega)]
  simp only [Option.bind_eq_bind, Option.bind_some]
  unfold Buf.put
  rw [if_pos (by simp; omega)]
  rfl

theorem message_fit {a tf : Bool} {o : Orc} {c : SIf} (hc : Circ a tf o c) (now : Timeval) (t : Tx) (ty len : Nat)
    (body : Bytes) (hty : ty < 256) (hlen : body.length = len) (h255 : len ≤ 255)
    (hfit : t.buf.bytes.length + (len + 2) + reserve a ≤ t.buf.size) :
    ∃ T R, message o c now ty len body t = some (addTlv t (.tlv (UInt8.ofNat ty) body) T R) := by
  unfold message
  rw [start_fit hc now t ty len hfit]
  simp only [Option.bind_eq_bind, Option.bind_some]
  unfold Buf.put
  rw [if_pos (by simp; omega)]
  simp only [Option.bind_some]
  obtain ⟨T, R, h⟩ := end_ok o now { t with buf := { t.buf with bytes := t.buf.bytes ++ [UInt8.ofNat ty, UInt8.ofNat len] ++ body } }
    t.buf.bytes ty len body hty hlen h255 (by simp)
  refine ⟨T, R, ?_⟩
  rw [h]
  simp [addTlv, Tlv.enc, hlen]

/-- Adding a TLV that is neither a hello nor a counter. -/
theorem Good.add {a tf : Bool} {b b' : Buf} {ts : List Tlv} (g : Good a tf b ts) (ty : UInt8) (body : Bytes)
    (h0 : ty ≠ 0) (h4 : ty ≠ 4) (h17 : ty ≠ 17) (hl : body.length ≤ 255)
    (hfit : b.bytes.length + (body.length + 2) + reserve a ≤ b.size)
    (hsz : b'.size = b.size) (hby : b'.bytes = b.bytes ++ (Tlv.tlv ty body).enc) (hhe : b'.hello = b.hello)
    (hid : ∀ e x, b'.id = some x → (many e {} (ts ++ [.tlv ty body])).1.routerId = some x)
    (hnh : ∀ e x, b'.nh = some x → (many e {} (ts ++ [.tlv ty body])).1.v4Nh = some (v4tov6 x))
    (hpf : ∀ e x, b'.prefix_ = some x →
      (many e {} (ts ++ [.tlv ty body])).1.v6Prefix = some x ∧ x.length = 16 ∧ v4mapped x = false)
    (hv6 : ∀ e, (many e {} (ts ++ [.tlv ty body])).1.v6Nh = none) :
    Good a tf b' (ts ++ [.tlv ty body]) where
  lo := by rw [hsz]; exact g.lo
  hi := by rw [hsz]; exact g.hi
  bytes := by rw [hby, encAll_snoc, g.bytes]
  ok := by
    intro t ht
    rcases List.mem_append.1 ht with h | h
    · exact g.ok t h
    · rw [List.mem_singleton] at h; subst h; exact ⟨h0, hl⟩
  room := by rw [hsz, hby]; simp [Tlv.enc]; omega
  hello := by
    rw [hhe]
    rcases g.hello with ⟨h1, h2⟩ | ⟨ts1, f, ts2, h1, h2, h3, h5, h6⟩
    · refine .inl ⟨h1, ?_⟩
      intro x hx
      rcases List.mem_append.1 hx with h | h
      · exact h2 x h
      · rw [List.mem_singleton] at h; cases h; exact h4 rfl
    · refine .inr ⟨ts1, f, ts2 ++ [.tlv ty body], h1, by rw [h2]; simp, h3, h5, ?_⟩
      intro x hx
      rcases List.mem_append.1 hx with h | h
      · exact h6 x h
      · rw [List.mem_singleton] at h; cases h; exact h4 rfl
  nopc := by
    intro x hx
    rcases List.mem_append.1 hx with h | h
    · exact g.nopc x h
    · rw [List.mem_singleton] at h; cases h; exact h17 rfl
  id := hid
  nh := hnh
  pfx := hpf
  v6 := hv6

/-- The buffer with some knowledge forgotten. -/
theorem Good.weaken {a tf : Bool} {b b' : Buf} {ts : List Tlv} (g : Good a tf b ts)
    (h1 : b'.size = b.size) (h2 : b'.bytes = b.bytes) (h3 : b'.hello = b.hello)
    (h4 : b'.id = b.id ∨ b'.id = none) (h5 : b'.nh = b.nh ∨ b'.nh = none)
    (h6 : b'.prefix_ = b.prefix_ ∨ b'.prefix_ = none) : Good a tf b' ts where
  lo := by rw [h1]; exact g.lo
  hi := by rw [h1]; exact g.hi
  bytes := by rw [h2]; exact g.bytes
  ok := g.ok
  room := by rw [h1, h2]; exact g.room
  hello := by rw [h3]; exact g.hello
  nopc := g.nopc
  id := by
    intro e x h
    rcases h4 with h4 | h4 <;> rw [h4] at h
    · exact g.id e x h
    · cases h
  nh := by
    intro e x h
    rcases h5 with h5 | h5 <;> rw [h5] at h
    · exact g.nh e x h
    · cases h
  pfx := by
    intro e x h
    rcases h6 with h6 | h6 <;> rw [h6] at h
    · exact g.pfx e x h
    · cases h
  v6 := g.v6

/-- The effect of an operation: perhaps a flush, then some TLVs are added. -/
structure Did (a tf : Bool) (o : Orc) (c : SIf) (now : Timeval) (t t' : Tx) (ts ts' : List Tlv)
    (items : PEnv → List Item) : Prop where
  good : Good a tf t'.buf ts'
  idx : t'.index.length = 8
  size : t'.buf.size = t.buf.size
  how : ∃ t1 base new, Ready o c now tf t ts t1 base ∧ ts' = base ++ new ∧ t'.out = t1.out ∧
    t'.pc = t1.pc ∧ t'.index = t1.index ∧ t'.draws = t1.draws ∧
    ∀ e, its e (many e {} base).1 new = items e

theorem Did.timeout {a tf o c now t t' ts ts' items} (d : Did a tf o c now t t' ts ts' items) (T : Timeval) (R : Nat) :
    Did a tf o c now t { t' with buf := { t'.buf with timeout := T }, rnds := R } ts ts' items where
  good := d.good.weaken rfl rfl rfl (.inl rfl) (.inl rfl) (.inl rfl)
  idx := d.idx
  size := d.size
  how := d.how

theorem Did.schedule {a tf o c now t t' ts ts' items} (d : Did a tf o c now t t' ts ts' items) (now' : Timeval) (ms : Int) (R : Nat) :
    Did a tf o c now t (scheduleFlushMs o now' ms { t' with rnds := R }) ts ts' items := by
  obtain ⟨T, R, h⟩ := schedule_shape o now' ms { t' with rnds := R }
  rw [h]
  exact d.timeout T R

theorem Did.nothing {a tf o c now t ts} (g : Good a tf t.buf ts) (hi : t.index.length = 8) :
    Did a tf o c now t t ts ts (fun _ => []) where
  good := g
  idx := hi
  size := rfl
  how := ⟨t, ts, [], .inl ⟨rfl, rfl⟩, by simp, rfl, rfl, rfl, rfl, fun e => rfl⟩

/-- A message that does not change the state of the receiver's parser. -/
theorem did_message {a tf : Bool} {o : Orc} {c : SIf} (hc : Circ a tf o c) (now : Timeval) {t : Tx} {ts : List Tlv}
    (g : Good a tf t.buf ts) (hi : t.index.length = 8) (ty len : Nat) (body : Bytes)
    (hty : 0 < ty ∧ ty < 256 ∧ ty ≠ 4 ∧ ty ≠ 17) (hlen : body.length = len) (hle : len ≤ 192) (items : PEnv → List Item)
    (hst : ∀ e s, ((one e s (UInt8.ofNat ty) body).1.routerId = s.routerId ∧
      (one e s (UInt8.ofNat ty) body).1.v4Nh = s.v4Nh ∧
      (one e s (UInt8.ofNat ty) body).1.v6Prefix = s.v6Prefix ∧
      (one e s (UInt8.ofNat ty) body).1.v6Nh = s.v6Nh) ∧
      (s.v6Nh = none → (one e s (UInt8.ofNat ty) body).2.map untimed = items e)) :
    ∃ t' ts', message o c now ty len body t = some t' ∧ Did a tf o c now t t' ts ts' items := by
  obtain ⟨t1, base, h1, h2, h3⟩ := ensure_ok hc now g hi (len + 2) (by omega)
  obtain ⟨g1, hi1, hs1⟩ := h2.good g hi
  obtain ⟨T, R, h4⟩ := message_fit hc now t1 ty len body hty.2.1 hlen (by omega) h3
  have h5 : message o c now ty len body t = message o c now ty len body t1 := by
    unfold message
    rw [start_fit hc now t1 ty len h3]
    unfold startMessage
    rw [h1]
    simp only [Option.bind_eq_bind, Option.bind_some]
    unfold Buf.put
    rw [if_pos (by simp; omega)]
    rfl
  have hne : ∀ n, n < 256 → ty ≠ n → UInt8.ofNat ty ≠ UInt8.ofNat n := by
    intro n hn hne h
    have := congrArg UInt8.toNat h
    simp at this
    omega
  refine ⟨_, base ++ [.tlv (UInt8.ofNat ty) body], h5.trans h4, ?_⟩
  have hm : ∀ e, (many e {} (base ++ [.tlv (UInt8.ofNat ty) body])).1 = (one e (many e {} base).1 (UInt8.ofNat ty) body).1 := by
    intro e
    rw [many_append]
    simp [many]
  refine ⟨?_, hi1, hs1, t1, base, _, h2, rfl, rfl, rfl, rfl, rfl, ?_⟩
  · refine g1.add (UInt8.ofNat ty) body (hne 0 (by omega) (by omega)) (hne 4 (by omega) hty.2.2.1) (hne 17 (by omega) hty.2.2.2)
      (by omega) (by omega) rfl rfl rfl ?_ ?_ ?_ ?_
    · intro e x h; rw [hm, (hst e _).1.1]; exact g1.id e x h
    · intro e x h; rw [hm, (hst e _).1.2.1]; exact g1.nh e x h
    · intro e x h; rw [hm, (hst e _).1.2.2.1]; exact g1.pfx e x h
    · intro e; rw [hm, (hst e _).1.2.2.2]; exact g1.v6 e
  · intro e
    unfold its
    simp only [many, List.append_nil]
    exact (hst e _).2 (g1.v6 e)

end Babel
