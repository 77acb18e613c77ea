import Verif.Lemmas.Buffer7
import Verif.Spec.Daemon
/-
Writing to the send buffers is safe even if prefixes are not normalised.
-/
set_option linter.unusedSimpArgs false
set_option linter.unusedVariables false
namespace Babel
open Spec

/-- The contents of the buffer fit, with the space reserved for authentication, and so does the hello. -/
structure SafeB (a tf : Bool) (b : Buf) : Prop where
  lo : 256 ≤ b.size
  hi : b.size < 65536
  room : b.bytes.length + reserve a ≤ b.size
  hello : tf = true → ∀ h, b.hello = some h → h + 14 ≤ b.bytes.length

theorem reserve_le (a : Bool) : reserve a ≤ 62 := by unfold reserve; split <;> omega

theorem SafeB.reset {a tf b} (g : SafeB a tf b) : SafeB a tf b.reset := by
  have := g.lo
  have := reserve_le a
  exact ⟨g.lo, g.hi, by show 0 + reserve a ≤ b.size; omega, fun _ h e => by cases e⟩

/-- An operation is safe. -/
def SafeTx (a tf : Bool) (t : Tx) : Prop := SafeB a tf t.buf ∧ t.index.length = 8

theorem stamp_length (l : Bytes) (i n : Nat) (h : i + 6 ≤ l.length) : (stamp l i n).length = l.length := by
  unfold stamp
  simp [htonl, htons, List.length_take, List.length_drop]
  omega

theorem fillRtt_safe {tf : Bool} (c : SIf) (now : Timeval) (b : Buf) (ht : c.timestamps = tf)
    (h : tf = true → ∀ h, b.hello = some h → h + 14 ≤ b.bytes.length) :
    ∃ l, fillRtt c now b = some { b with bytes := l } ∧ l.length = b.bytes.length := by
  unfold fillRtt
  rw [ht]
  cases tf with
  | false => exact ⟨b.bytes, rfl, rfl⟩
  | true =>
    cases hh : b.hello with
    | none => exact ⟨b.bytes, by cases b; simp only at hh; subst hh; rfl, rfl⟩
    | some i =>
      have hl := h rfl i hh
      simp only
      unfold rd
      rw [List.getElem?_eq_getElem (by omega), List.getElem?_eq_getElem (by omega)]
      simp only [Option.map_some, Option.bind_eq_bind, Option.bind_some]
      rw [if_pos hl]
      split
      · exact ⟨_, rfl, stamp_length _ _ _ (by omega)⟩
      · exact ⟨b.bytes, by cases b; simp only at hh; subst hh; rfl, rfl⟩

section
variable {a tf : Bool} {o : Orc} {c : SIf} (hc : Circ a tf o c) (now : Timeval) {t : Tx}
include hc

theorem flush_safe (g : SafeTx a tf t) : ∃ t', flushbuf o c now t = some t' ∧ SafeTx a tf t' ∧ t'.buf.bytes = [] ∧
    t'.buf.size = t.buf.size := by
  have hroom := g.1.room
  unfold flushbuf
  rw [if_neg (by omega)]
  by_cases h0 : t.buf.bytes.length > 0
  case neg =>
    rw [if_neg h0]
    exact ⟨_, rfl, ⟨g.1.reset, g.2⟩, rfl, rfl⟩
  rw [if_pos h0]
  have hpc : ∃ ex : Bytes, ∃ pc ix dr, addPc o c t = some { t with
          buf := { t.buf with bytes := t.buf.bytes ++ ex }, pc := pc, index := ix, draws := dr } ∧
        ex.length + (if c.auth.isSome = true then 34 else 0) ≤ reserve a ∧ ix.length = 8 := by
    unfold addPc
    by_cases ha : c.auth.isSome = true
    · have hk := auth_key ha
      rw [hc.key] at hk
      subst hk
      have hr : t.buf.bytes.length + 62 ≤ t.buf.size := hroom
      obtain ⟨h1, h2, h3, h4⟩ := sendPc_ok o t hr g.2 hc.rand
      rw [if_pos ha, if_pos ha]
      generalize nextCtr o true t.pc t.index t.draws = r at *
      refine ⟨encAll r.1, r.2.1, r.2.2.1, r.2.2.2, h1, ?_, h3⟩
      unfold reserve
      rw [if_pos rfl]
      omega
    · rw [if_neg ha, if_neg ha]
      exact ⟨[], t.pc, t.index, t.draws, by simp, by simp, g.2⟩
  obtain ⟨ex, pc, ix, dr, h1, h2, h3⟩ := hpc
  rw [h1]
  simp only [Option.bind_eq_bind, Option.bind_some]
  obtain ⟨l, h4, h5⟩ := fillRtt_safe (tf := tf) c now { t.buf with bytes := t.buf.bytes ++ ex } hc.ts (by
    intro ht h e
    have := g.1.hello ht h e
    show _ ≤ (t.buf.bytes ++ ex).length
    rw [List.length_append]; omega)
  have h5 : l.length = t.buf.bytes.length + ex.length := by
    rw [h5]
    exact List.length_append
  rw [h4]
  simp only [Option.bind_some]
  obtain ⟨tr, htr, -, -⟩ := trailer_ok hc { t.buf with bytes := l }
    (by intro ha; rw [if_pos ha] at h2; show l.length + 34 ≤ t.buf.size; omega)
    (by show l.length ≤ t.buf.size; omega)
  have htr : trailer c { t.buf with bytes := l } = some (some tr) := htr
  rw [htr]
  exact ⟨_, rfl, ⟨g.1.reset, h3⟩, rfl, rfl⟩

theorem ensure_safe (g : SafeTx a tf t) (n : Nat) (hn : n ≤ 194) :
    ∃ t1, ensureSpace o c now n t = some t1 ∧ SafeTx a tf t1 ∧ t1.buf.bytes.length + n + reserve a ≤ t1.buf.size := by
  have hsp : (if c.key.isSome = true then n + hmacSpace else n) = n + reserve a := by
    rw [hc.key]; unfold reserve hmacSpace
    cases a <;> rfl
  have hr := reserve_le a
  unfold ensureSpace
  simp only [hsp]
  by_cases h : ((t.buf.size : Int) - t.buf.bytes.length < (n + reserve a : Nat))
  · rw [if_pos h]
    obtain ⟨t', h1, h2, h3, h4⟩ := flush_safe hc now g
    refine ⟨t', h1, h2, ?_⟩
    rw [h3]
    have := h2.1.lo
    simp
    omega
  · rw [if_neg h]
    exact ⟨t, rfl, g, by omega⟩

omit hc in
theorem SafeTx.add (g : SafeTx a tf t) (x : Bytes) (T : Timeval) (R : Nat) (h : t.buf.bytes.length + x.length + reserve a ≤ t.buf.size) :
    SafeTx a tf { t with buf := { t.buf with bytes := t.buf.bytes ++ x, timeout := T }, rnds := R } :=
  ⟨⟨g.1.lo, g.1.hi, by show (t.buf.bytes ++ x).length + _ ≤ _; rw [List.length_append]; exact h,
    fun ht i e => by
      have := g.1.hello ht i e
      show _ ≤ (t.buf.bytes ++ x).length
      rw [List.length_append]; omega⟩, g.2⟩

theorem message_room (g : SafeTx a tf t) (ty len : Nat) (body : Bytes) (hty : ty < 256) (hlen : body.length = len) (h255 : len ≤ 255)
    (hfit : t.buf.bytes.length + (len + 2) + reserve a ≤ t.buf.size) :
    ∃ t', message o c now ty len body t = some t' ∧ SafeTx a tf t' ∧ t'.buf.size = t.buf.size ∧
      t'.buf.bytes.length = t.buf.bytes.length + (len + 2) ∧ t'.buf.hello = t.buf.hello := by
  obtain ⟨T, R, h⟩ := message_fit hc now t ty len body hty hlen h255 hfit
  refine ⟨_, h, g.add _ T R ?_, rfl, ?_, rfl⟩
  · simp [Tlv.enc, hlen]; omega
  · show (t.buf.bytes ++ _).length = _
    simp [Tlv.enc, hlen]

theorem message_safe (g : SafeTx a tf t) (ty len : Nat) (body : Bytes) (hty : ty < 256) (hlen : body.length = len) (h : len ≤ 192) :
    ∃ t', message o c now ty len body t = some t' ∧ SafeTx a tf t' := by
  obtain ⟨t1, h1, h2, h3⟩ := ensure_safe hc now g (len + 2) (by omega)
  obtain ⟨t', h4, h5, -⟩ := message_room hc now h2 ty len body hty hlen (by omega) h3
  refine ⟨t', ?_, h5⟩
  have e : message o c now ty len body t = message o c now ty len body t1 := by
    unfold message startMessage
    rw [h1]
    have : ensureSpace o c now (len + 2) t1 = some t1 := by
      have hsp : (if c.key.isSome = true then len + 2 + hmacSpace else len + 2) = len + 2 + reserve a := by
        rw [hc.key]; unfold reserve hmacSpace
        cases a <;> rfl
      unfold ensureSpace
      simp only [hsp]
      rw [if_neg (by omega)]
    rw [this]
  rw [e, h4]

omit hc in
theorem SafeTx.sched (g : SafeTx a tf t) (o : Orc) (ms : Int) : SafeTx a tf (scheduleFlushMs o now ms t) := by
  obtain ⟨T, R, h⟩ := schedule_shape o now ms t
  rw [h]
  exact ⟨⟨g.1.lo, g.1.hi, g.1.room, g.1.hello⟩, g.2⟩

omit hc in
theorem srcSub_safe {k : PKey} (hk : KeyFits k) (v4 : Bool) (h : v4 = true → isV4 k) :
    ∃ sub, srcSubTlv v4 k = some sub ∧ sub.length ≤ 19 := by
  obtain ⟨k1, k2, k3, k4, k5⟩ := hk
  unfold srcSubTlv
  by_cases hs : k.isSS = true
  · rw [if_pos hs]
    cases v4 with
    | true =>
      simp only [if_true]
      rw [if_neg (by have := k5 (h rfl) hs; omega)]
      exact ⟨_, rfl, by simp [List.length_take]; omega⟩
    | false =>
      simp only [if_false, Bool.false_eq_true]
      exact ⟨_, rfl, by simp [List.length_take]; omega⟩
  · rw [if_neg hs]
    exact ⟨[], rfl, by simp⟩

theorem id_safe (g : SafeTx a tf t) (id : Bytes) (hid : id.length = 8) (fp : Bool) (n : Nat) (hr : Room a t.buf (12 + n)) :
    ∃ fl t', bufferId o c now id fp t = some (fl, t') ∧ SafeTx a tf t' ∧ Room a t'.buf n := by
  unfold bufferId
  unfold Room at hr ⊢
  split
  · exact ⟨_, _, rfl, g, by omega⟩
  · split
    · exact ⟨_, _, rfl, ⟨⟨g.1.lo, g.1.hi, g.1.room, g.1.hello⟩, g.2⟩, by show t.buf.bytes.length + _ + _ ≤ t.buf.size; omega⟩
    · obtain ⟨t', h1, h2, h3, h4, -⟩ := message_room hc now g 6 10 (htons 0 ++ id) (by decide) (by simp [htons, hid]) (by decide) (by omega)
      rw [h1]
      refine ⟨_, _, rfl, ⟨⟨h2.1.lo, h2.1.hi, h2.1.room, h2.1.hello⟩, h2.2⟩, ?_⟩
      show t'.buf.bytes.length + _ + _ ≤ t'.buf.size
      omega

theorem nh_safe (g : SafeTx a tf t) (ip : Bytes) (hip : ip.length = 4) (n : Nat) (hr : Room a t.buf (8 + n)) :
    ∃ t', bufferNh o c now ip t = some t' ∧ SafeTx a tf t' ∧ Room a t'.buf n := by
  unfold bufferNh
  unfold Room at hr ⊢
  split
  · exact ⟨_, rfl, g, by omega⟩
  · obtain ⟨t', h1, h2, h3, h4, -⟩ := message_room hc now g 7 6 ([1, 0] ++ ip) (by decide) (by simp [hip]) (by decide) (by omega)
    rw [h1]
    refine ⟨_, rfl, ⟨⟨h2.1.lo, h2.1.hi, h2.1.room, h2.1.hello⟩, h2.2⟩, ?_⟩
    show t'.buf.bytes.length + _ + _ ≤ t'.buf.size
    omega

theorem updTlv_safe (g : SafeTx a tf t) (ae fl plen om sq m : Nat) (pfx sub : Bytes) (hr : Room a t.buf 47) (hpl : plen ≤ 128)
    (ho : om ≤ plen / 8) (hpf : (plen + 7) / 8 ≤ pfx.length) (hsub : sub.length ≤ 19) :
    ∃ t', bufferUpdateTlv o c now ae fl plen om sq m pfx sub t = some t' ∧ SafeTx a tf t' := by
  unfold Room at hr
  obtain ⟨t', h1, h2, -⟩ := message_room hc now g 8 (10 + ((plen + 7) / 8 - om) + sub.length)
    ([UInt8.ofNat ae, UInt8.ofNat fl, UInt8.ofNat plen, UInt8.ofNat om] ++
      htons ((c.updateInterval + 5) / 10) ++ htons sq ++ htons m ++
      (pfx.drop om).take ((plen + 7) / 8 - om) ++ sub) (by decide)
    (by simp [htons, List.length_take, List.length_drop]; omega) (by omega) (by omega)
  exact ⟨t', h1, h2⟩

theorem update_safe (g : SafeTx a tf t) (id : Bytes) (k : PKey) (sq m : Nat) (hid : id.length = 8) (hk : KeyFits k) :
    ∃ t', reallyBufferUpdate o c now id k sq m t = some t' ∧ SafeTx a tf t' := by
  obtain ⟨k1, k2, k3, k4, k5⟩ := hk
  unfold reallyBufferUpdate
  split
  · exact ⟨_, rfl, g⟩
  split
  · exact ⟨_, rfl, g⟩
  simp only
  split
  · exact ⟨_, rfl, g⟩
  obtain ⟨t1, h1, g1, r1⟩ := ensure_safe hc now g (20 + 12 + 28 + 18) (by decide)
  rw [h1]
  simp only [Option.bind_eq_bind, Option.bind_some]
  have r1 : Room a t1.buf 78 := r1
  by_cases hv : keyIsV4 k = true
  · rw [if_pos hv]
    have hv' := (key_v4 k).1 hv
    obtain ⟨sub, hs, hsl⟩ := srcSub_safe ⟨k1, k2, k3, k4, k5⟩ true (fun _ => hv')
    have hlast : ∀ (t2 : Tx) (ae fl : Nat), SafeTx a tf t2 → Room a t2.buf 47 →
        ∃ t', bufferUpdateTlv o c now ae fl (k.plen - 96) 0 sq (min (m + c.filter id k) INFINITY) (k.prefix_.drop 12) sub t2 = some t' ∧
          SafeTx a tf t' := fun t2 ae fl g2 r2 =>
      updTlv_safe hc now g2 ae fl (k.plen - 96) 0 sq _ _ sub r2 (by omega) (by omega) (by rw [List.length_drop, k1]; omega) hsl
    unfold bufferUpdate4
    cases hip : c.ipv4 with
    | none =>
      simp only
      split
      · exact ⟨_, rfl, g1⟩
      · rw [hs]
        simp only [Option.bind_eq_bind, Option.bind_some]
        obtain ⟨fl, t2, h2, g2, r2⟩ := id_safe hc now g1 id hid false 47 (by unfold Room at *; omega)
        rw [h2]
        exact hlast t2 4 fl g2 r2
    | some ip =>
      simp only
      rw [hs]
      simp only [Option.bind_eq_bind, Option.bind_some]
      obtain ⟨t2, h2, g2, r2⟩ := nh_safe hc now g1 ip (hc.ip ip hip) 59 (by unfold Room at *; omega)
      rw [h2]
      simp only [Option.bind_some]
      obtain ⟨fl, t3, h3, g3, r3⟩ := id_safe hc now g2 id hid false 47 (by unfold Room at *; omega)
      rw [h3]
      exact hlast t3 1 fl g3 r3
  · rw [if_neg hv]
    obtain ⟨sub, hs, hsl⟩ := srcSub_safe ⟨k1, k2, k3, k4, k5⟩ false nofun
    unfold bufferUpdate6
    simp only
    rw [hs]
    simp only [Option.bind_eq_bind, Option.bind_some]
    obtain ⟨fl, t2, h2, g2, r2⟩ := id_safe hc now g1 id hid (k.plen == 128 && (k.prefix_.drop 8).take 8 == id) 47 (by unfold Room at *; omega)
    rw [h2]
    simp only [Option.bind_some]
    have ho : omittedBytes t1.buf.prefix_ k ≤ k.plen / 8 := by
      unfold omittedBytes
      cases t1.buf.prefix_ with
      | none => exact Nat.zero_le _
      | some d => exact (shared_take _ _ _).1
    obtain ⟨t3, h3, g3⟩ := updTlv_safe hc now g2 2
      ((if decide (t1.buf.prefix_ = none ∨ k.plen ≥ 48) = true then 0x80 else 0) + fl) k.plen (omittedBytes t1.buf.prefix_ k) sq
      (min (m + c.filter id k) INFINITY) k.prefix_ sub r2 k2 ho (by rw [k1]; omega) hsl
    rw [h3]
    simp only [Option.bind_some]
    split
    · exact ⟨_, rfl, ⟨g3.1.lo, g3.1.hi, g3.1.room, g3.1.hello⟩, g3.2⟩
    · exact ⟨_, rfl, g3⟩

theorem hello_safe (g : SafeTx a tf t) (sq i : Nat) (u : Bool) :
    ∃ t', bufferHello o c now sq i u t = some t' ∧ SafeTx a tf t' := by
  unfold bufferHello
  simp only
  obtain ⟨len, hlen⟩ : ∃ len, len = (if c.timestamps = true then 12 else 6) := ⟨_, rfl⟩
  have hl : len ≤ 12 := by rw [hlen]; split <;> omega
  rw [← hlen]
  obtain ⟨t1, h1, g1, r1⟩ := ensure_safe hc now g (len + 2) (by omega)
  have hst : startMessage o c now 4 len t = some { t1 with buf := { t1.buf with bytes := t1.buf.bytes ++ [UInt8.ofNat 4, UInt8.ofNat len] } } := by
    unfold startMessage
    rw [h1]
    simp only [Option.bind_eq_bind, Option.bind_some]
    unfold Buf.put
    rw [if_pos (by simp; omega)]
    rfl
  rw [hst]
  simp only [Option.bind_eq_bind, Option.bind_some]
  obtain ⟨body, hbody⟩ : ∃ body : Bytes, body = (htons (if u = true then 0x8000 else 0) ++ htons sq ++
    htons (if i > 0xFFFF then 0xFFFF else i) ++ if c.timestamps = true then [1, 4] ++ htonl 0 else []) := ⟨_, rfl⟩
  have hb : body.length = len := by
    rw [hbody, hlen]
    cases c.timestamps <;> simp [htons, htonl]
  rw [← hbody]
  unfold Buf.put
  rw [if_pos (by simp [hb]; omega)]
  simp only [Option.bind_some]
  obtain ⟨T, R, h2⟩ := end_ok o now { t1 with buf := { t1.buf with
      bytes := t1.buf.bytes ++ [UInt8.ofNat 4, UInt8.ofNat len] ++ body
      hello := some ((t1.buf.bytes ++ [UInt8.ofNat 4, UInt8.ofNat len]).length - 2) } }
    t1.buf.bytes 4 len body (by decide) hb (by omega) (by simp)
  rw [h2]
  refine ⟨_, rfl, ⟨g1.1.lo, g1.1.hi, ?_, ?_⟩, g1.2⟩
  · show (t1.buf.bytes ++ [UInt8.ofNat 4, UInt8.ofNat len] ++ body).length + _ ≤ t1.buf.size
    simp [hb]; omega
  · intro ht h e
    cases e
    have : len = 12 := by rw [hlen, hc.ts, ht]; rfl
    show _ ≤ (t1.buf.bytes ++ [UInt8.ofNat 4, UInt8.ofNat len] ++ body).length
    simp [hb, this]

/-- All operations are safe. -/
theorem op_safe (op : Snd) (hop : SndFits op) (g : SafeTx a tf t) : ∃ t', op.run o c now t = some t' ∧ SafeTx a tf t' := by
  cases op with
  | ack n i =>
    show ∃ t', sendAck o c now n i t = some t' ∧ _
    unfold sendAck
    obtain ⟨t', h1, h2⟩ := message_safe hc now g 3 2 (htons n) (by decide) (by simp [htons]) (by decide)
    rw [h1]
    exact ⟨_, rfl, SafeTx.sched now (t := { t' with rnds := t'.rnds + 1 }) h2 o _⟩
  | challenge n =>
    show ∃ t', bufferChallenge o c now n t = some t' ∧ _
    unfold bufferChallenge
    obtain ⟨t', h1, h2⟩ := message_safe hc now g 18 8 n (by decide) hop (by decide)
    rw [h1]
    exact ⟨_, rfl, SafeTx.sched now (t := { t' with rnds := t'.rnds + 1 }) h2 o _⟩
  | reply n =>
    show ∃ t', bufferReply o c now n t = some t' ∧ _
    unfold bufferReply
    obtain ⟨t', h1, h2⟩ := message_safe hc now g 19 n.length n (by decide) rfl hop
    rw [h1]
    exact ⟨_, rfl, SafeTx.sched now (t := { t' with rnds := t'.rnds + 1 }) h2 o _⟩
  | hello s i u f =>
    show ∃ t', sendHello o c now s i u f t = some t' ∧ _
    unfold sendHello
    split
    · split
      · obtain ⟨t1, h1, h2, -⟩ := flush_safe hc now g
        rw [h1]
        exact hello_safe hc now h2 s i u
      · exact ⟨_, rfl, g⟩
    · exact hello_safe hc now g s i u
  | update id k s m => exact update_safe hc now g id k s m hop.1 hop.2
  | retraction s =>
    show ∃ t', bufferRetraction o c now s t = some t' ∧ _
    unfold bufferRetraction
    obtain ⟨t', h1, h2⟩ := message_safe hc now g 8 10 ([0, 0, 0, 0] ++ htons 0xFFFF ++ htons s ++ htons 0xFFFF) (by decide)
      (by simp [htons]) (by decide)
    rw [h1]
    exact ⟨_, rfl, ⟨h2.1.lo, h2.1.hi, h2.1.room, h2.1.hello⟩, h2.2⟩
  | ihu r i ad rtt =>
    show ∃ t', bufferIhu o c now r i ad rtt t = some t' ∧ _
    unfold bufferIhu
    refine message_safe hc now g 5 _ _ (by decide) ?_ ?_
    · have : ad.length = 16 := hop
      cases linklocal ad <;> cases rtt <;> simp [htons, htonl, rttSubTlv, this]
    · cases linklocal ad <;> cases rtt <;> simp
  | request k =>
    show ∃ t', bufferRequest o c now k t = some t' ∧ _
    unfold bufferRequest
    cases k with
    | none => exact message_safe hc now g 9 2 [0, 0] (by decide) rfl (by decide)
    | some k =>
      simp only
      split
      · exact ⟨_, rfl, g⟩
      · have hk : KeyFits k := hop k rfl
        obtain ⟨sub, hs, hsl⟩ := srcSub_safe hk (keyIsV4 k) (fun h => (key_v4 k).1 h)
        rw [hs]
        simp only [Option.bind_eq_bind, Option.bind_some]
        obtain ⟨k1, k2, k3, k4, k5⟩ := hk
        refine message_safe hc now g 9 _ _ (by decide) ?_ ?_
        · cases keyIsV4 k <;> simp [List.length_take, List.length_drop, k1] <;> omega
        · cases keyIsV4 k <;> simp <;> omega
  | seqnoRequest k s id h =>
    show ∃ t', sendMultihop o c now k s id h t = some t' ∧ _
    unfold sendMultihop
    split
    · exact ⟨_, rfl, g⟩
    · have hk : KeyFits k := hop.1
      have hid : id.length = 8 := hop.2
      obtain ⟨sub, hs, hsl⟩ := srcSub_safe hk (keyIsV4 k) (fun h => (key_v4 k).1 h)
      simp only
      rw [hs]
      simp only [Option.bind_eq_bind, Option.bind_some]
      obtain ⟨k1, k2, k3, k4, k5⟩ := hk
      refine message_safe hc now g 10 _ _ (by decide) ?_ ?_
      · cases keyIsV4 k <;> simp [List.length_take, List.length_drop, k1, hid, htons] <;> omega
      · cases keyIsV4 k <;> simp <;> omega
  | ensure n =>
    obtain ⟨t1, h1, h2, -⟩ := ensure_safe hc now g n hop
    exact ⟨t1, h1, h2⟩
  | flush =>
    obtain ⟨t1, h1, h2, -⟩ := flush_safe hc now g
    exact ⟨t1, h1, h2⟩

end

/-- A sequence of operations on the buffers of an interface is safe. -/
theorem run_safe {a tf : Bool} {o : Orc} (acts : List Act) (l : Link) (hf : (∀ i, SafeB a tf (l.bufs i)) ∧ l.index.length = 8)
    (h : ∀ x ∈ acts, Circ a tf o x.c ∧ SndFits x.op) : ∃ l', l.run o acts = some l' := by
  induction acts generalizing l with
  | nil => exact ⟨l, rfl⟩
  | cons x xs ih =>
    obtain ⟨h1, h2⟩ := h x (List.mem_cons_self ..)
    obtain ⟨t', h3, h4⟩ := op_safe h1 x.now (t := l.tx x.i) x.op h2 ⟨hf.1 x.i, hf.2⟩
    unfold Link.run Link.step
    rw [h3]
    simp only [Option.bind_eq_bind, Option.bind_some, pure]
    refine ih _ ⟨fun i => ?_, h4.2⟩ fun y hy => h y (List.mem_cons_of_mem _ hy)
    show SafeB a tf (if i = x.i then t'.buf else l.bufs i)
    split
    · exact h4.1
    · exact hf.1 i

theorem Spec.FreshLink.safe {a tf : Bool} {l : Link} (h : FreshLink l) : (∀ i, SafeB a tf (l.bufs i)) ∧ l.index.length = 8 := by
  refine ⟨fun i => ?_, h.2.2.1⟩
  obtain ⟨h1, h2, h3, -, -, -, h4⟩ := h.1 i
  have := reserve_le a
  exact ⟨h1, h2, by rw [h3]; simp; omega, fun _ x e => by rw [h4] at e; cases e⟩

end Babel
