import Verif.Lemmas.Buffer5
/-
Every operation.
-/
set_option linter.unusedSimpArgs false
set_option linter.unusedVariables false
set_option linter.unusedSectionVars false
namespace Babel
open Spec

section
variable {a tf : Bool} {o : Orc} {c : SIf} (hc : Circ a tf o c) (now : Timeval) {t : Tx} {ts : List Tlv}
include hc

theorem did_update (id : Bytes) (k : PKey) (sq m : Nat) (hid : id.length = 8) (hk : KeyOk k) (hsq : sq < 65536)
    (g : Good a tf t.buf ts) (hi : t.index.length = 8) :
    ∃ t' ts', reallyBufferUpdate o c now id k sq m t = some t' ∧
      Did a tf o c now t t' ts ts' (fun e => told e c t.buf.hello.isSome (.update id k sq m)) := by
  unfold reallyBufferUpdate
  by_cases hu : c.up = true
  case neg =>
    rw [if_pos (by simpa using hu)]
    refine ⟨t, ts, rfl, ?_⟩
    have : (fun e => told e c t.buf.hello.isSome (.update id k sq m)) = fun _ => [] := by
      funext e; exact if_neg (fun h => hu h.1)
    rw [this]
    exact Did.nothing g hi
  rw [if_neg (by simpa using hu)]
  by_cases hs : sendable c k
  case neg =>
    have hs' : ((k.isSS && c.rfc6126) = true) := by
      unfold sendable at hs; rw [Bool.and_eq_true]; exact Decidable.not_not.1 hs
    rw [if_pos hs']
    refine ⟨t, ts, rfl, ?_⟩
    have : (fun e => told e c t.buf.hello.isSome (.update id k sq m)) = fun _ => [] := by
      funext e; exact if_neg (fun h => hs h.2.1)
    rw [this]
    exact Did.nothing g hi
  have hs' : ¬ ((k.isSS && c.rfc6126) = true) := by rw [Bool.and_eq_true]; exact hs
  rw [if_neg hs']
  by_cases hf : c.filter id k ≥ INFINITY
  · simp only [hf, if_true]
    refine ⟨t, ts, rfl, ?_⟩
    have : (fun e => told e c t.buf.hello.isSome (.update id k sq m)) = fun _ => [] := by
      funext e; exact if_neg (fun h => by have := h.2.2.1; unfold INFINITY at hf; omega)
    rw [this]
    exact Did.nothing g hi
  simp only [hf, if_false]
  have hf' : c.filter id k < 65535 := by unfold INFINITY at hf; omega
  have hINF : INFINITY = 65535 := rfl
  obtain ⟨t1, base, h1, h2, h3⟩ := ensure_ok hc now g hi 78 (by omega)
  obtain ⟨g1, hi1, hs1⟩ := h2.good g hi
  rw [h1]
  simp only [Option.bind_eq_bind, Option.bind_some]
  have hm : min (m + c.filter id k) INFINITY < 65536 := by rw [hINF]; omega
  by_cases hv : isV4 k
  · rw [if_pos ((key_v4 k).2 hv)]
    unfold bufferUpdate4
    cases hip : c.ipv4 with
    | none =>
      simp only []
      by_cases h46 : c.v4viav6 = true
      · rw [if_neg (by simp [h46])]
        obtain ⟨sub, u1, u2, u3, u4⟩ := source_ok hk 4 (by rw [if_pos hv]; exact .inr rfl)
        rw [(key_v4 k).2 hv] at u1
        rw [u1]
        simp only [Option.bind_eq_bind, Option.bind_some]
        obtain ⟨fl, t2, new2, i1, i2, i3, i4, i5, i6, i7, i8⟩ := id_ok hc now id hid false g1 47 (by unfold Room; omega)
        rw [i1]
        simp only [Option.bind_eq_bind, Option.bind_some]
        have hfl : fl = 0 ∧ ∀ e, (many e {} (base ++ new2)).1.routerId = some id := by
          rcases i8 with h | h
          · exact h
          · exact absurd h.2 (by decide)
        obtain ⟨t3, new3, j1, j2, j3⟩ := upd4_ok hc now 4 (.inr rfl) fl id k sq _ sub hk hv hsq hm u3 u2 i4 i2 i7 hfl.1 hfl.2
          (fun h => absurd h (by decide))
        rw [j1]
        refine ⟨t3, base ++ (new2 ++ new3), rfl, ?_⟩
        have hg := i3.trans j3
        have := hg.did h2 g hi (by rw [← List.append_assoc]; exact j2)
        have heq : (fun e => told e c t.buf.hello.isSome (.update id k sq m)) = fun e => [] ++
            (if 4 = 1 ∨ e.v4viav6 = true then
              [Item.update (some id) (canonical k) sq (min (m + c.filter id k) INFINITY) ((c.updateInterval + 5) / 10 % 65536)
                (if 4 = 1 then t2.buf.nh.map v4tov6 else some e.sender)]
            else []) := by
          funext e
          simp [told, announced, hu, hs, hf', hv, hip, h46, hopFor, hINF]
        rw [heq]
        exact this
      · rw [if_pos (by simpa using h46)]
        refine ⟨t1, base, rfl, ?_⟩
        have := (Grow.refl t1 base).did h2 g hi (by rw [List.append_nil]; exact g1)
        rw [List.append_nil] at this
        have heq : (fun e => told e c t.buf.hello.isSome (.update id k sq m)) = fun e => [] := by
          funext e
          simp [told, announced, hv, hip, h46]
        rw [heq]
        exact this
    | some ip =>
      simp only []
      have hip4 : ip.length = 4 := hc.ip ip hip
      obtain ⟨sub, u1, u2, u3, u4⟩ := source_ok hk 1 (by rw [if_pos hv]; exact .inl rfl)
      rw [(key_v4 k).2 hv] at u1
      rw [u1]
      simp only [Option.bind_eq_bind, Option.bind_some]
      obtain ⟨t2, new2, n1, n2, n3, n4, n5⟩ := nh_ok hc now ip hip4 g1 59 (by unfold Room; omega)
      rw [n1]
      simp only [Option.bind_eq_bind, Option.bind_some]
      obtain ⟨fl, t3, new3, i1, i2, i3, i4, i5, i6, i7, i8⟩ := id_ok hc now id hid false n2 47 n4
      rw [i1]
      simp only [Option.bind_eq_bind, Option.bind_some]
      have hfl : fl = 0 ∧ ∀ e, (many e {} (base ++ new2 ++ new3)).1.routerId = some id := by
        rcases i8 with h | h
        · exact h
        · exact absurd h.2 (by decide)
      obtain ⟨t4, new4, j1, j2, j3⟩ := upd4_ok hc now 1 (.inl rfl) fl id k sq _ sub hk hv hsq hm u3 u2 i4 i2 i7 hfl.1 hfl.2
        (fun _ => ⟨ip, i5.trans n5⟩)
      rw [j1]
      refine ⟨t4, base ++ (new2 ++ (new3 ++ new4)), rfl, ?_⟩
      have hg := n3.trans (i3.trans j3)
      have := hg.did h2 g hi (by simpa [List.append_assoc] using j2)
      have heq : (fun e => told e c t.buf.hello.isSome (.update id k sq m)) = fun e => [] ++ ([] ++
          (if 1 = 1 ∨ e.v4viav6 = true then
            [Item.update (some id) (canonical k) sq (min (m + c.filter id k) INFINITY) ((c.updateInterval + 5) / 10 % 65536)
              (if 1 = 1 then t3.buf.nh.map v4tov6 else some e.sender)]
          else [])) := by
        funext e
        simp [told, announced, hu, hs, hf', hv, hip, hopFor, hINF, i5.trans n5]
      rw [heq]
      exact this
  · rw [if_neg (fun h => hv ((key_v4 k).1 h))]
    unfold bufferUpdate6
    have hkf : keyIsV4 k = false := by
      rw [Bool.eq_false_iff]; exact fun h => hv ((key_v4 k).1 h)
    obtain ⟨sub, u1, u2, u3, u4⟩ := source_ok hk 2 (by rw [if_neg hv])
    rw [hkf] at u1
    rw [u1]
    simp only [Option.bind_eq_bind, Option.bind_some]
    obtain ⟨fl, t2, new2, i1, i2, i3, i4, i5, i6, i7, i8⟩ := id_ok hc now id hid
      (k.plen == 128 && (k.prefix_.drop 8).take 8 == id) g1 47 (by unfold Room; omega)
    rw [i1]
    simp only [Option.bind_eq_bind, Option.bind_some]
    have hfl : (fl = 0 ∧ ∀ e, (many e {} (base ++ new2)).1.routerId = some id) ∨ (fl = 0x40 ∧ k.prefix_.drop 8 = id) := by
      rcases i8 with h | h
      · exact .inl h
      · refine .inr ⟨h.1, ?_⟩
        have h := h.2
        rw [Bool.and_eq_true] at h
        have := eq_of_beq h.2
        rw [List.take_of_length_le (by have := hk.1.1; simp; omega)] at this
        exact this
    obtain ⟨t3, new3, j1, j2, j3⟩ := upd6_ok hc now (decide (t1.buf.prefix_ = none ∨ k.plen ≥ 48)) fl
      (k.plen == 128 && (k.prefix_.drop 8).take 8 == id) id k
      (omittedBytes t1.buf.prefix_ k) sq _ sub hk hv hsq hm u3 u2 i4 i2 i7 hfl
      (by rw [i6])
    rw [j1]
    simp only [Option.bind_some]
    refine ⟨_, base ++ (new2 ++ new3), rfl, ?_⟩
    have hg := i3.trans j3
    have hg' : Grow t1 (if decide (t1.buf.prefix_ = none ∨ k.plen ≥ 48) = true then
        { t3 with buf := { t3.buf with prefix_ := some k.prefix_ } } else t3) base (new2 ++ new3) (fun e => [] ++
        [Item.update (some id) (canonical k) sq (min (m + c.filter id k) INFINITY) ((c.updateInterval + 5) / 10 % 65536)
              (some e.sender)]) := by
      refine ⟨?_, ?_, ?_, ?_, ?_, hg.items⟩
      · rw [← hg.size]; split <;> rfl
      · rw [← hg.out]; split <;> rfl
      · rw [← hg.pc]; split <;> rfl
      · rw [← hg.index]; split <;> rfl
      · rw [← hg.draws]; split <;> rfl
    have := hg'.did h2 g hi (by
      rw [← List.append_assoc]
      have e1 : (if decide (t1.buf.prefix_ = none ∨ k.plen ≥ 48) = true then
          { t3 with buf := { t3.buf with prefix_ := some k.prefix_ } } else t3).buf =
          if decide (t1.buf.prefix_ = none ∨ k.plen ≥ 48) = true then { t3.buf with prefix_ := some k.prefix_ } else t3.buf := by
        split <;> rfl
      rw [e1]
      exact j2)
    have heq : (fun e => told e c t.buf.hello.isSome (.update id k sq m)) = fun e => [] ++
        [Item.update (some id) (canonical k) sq (min (m + c.filter id k) INFINITY) ((c.updateInterval + 5) / 10 % 65536)
              (some e.sender)] := by
      funext e
      have hop : hopFor e c k = e.sender := by
        unfold hopFor; split
        · rw [if_neg hv]
        · rfl
      simp [told, announced, hu, hs, hf', hv, hop, hINF]
    rw [heq]
    exact this

/-- Adding a hello. -/
theorem Good.addHello {b b' : Buf} {f : Bytes} (hf : f.length = 6) (g : Good a tf b ts) (hn : b.hello = none)
    (hfit : b.bytes.length + (f ++ stampPad tf).length + 2 + reserve a ≤ b.size)
    (hsz : b'.size = b.size) (hby : b'.bytes = b.bytes ++ (Tlv.tlv 4 (f ++ stampPad tf)).enc)
    (hhe : b'.hello = some b.bytes.length) (hid : b'.id = b.id) (hnh : b'.nh = b.nh) (hpf : b'.prefix_ = b.prefix_) :
    Good a tf b' (ts ++ [.tlv 4 (f ++ stampPad tf)]) := by
  have hno : ∀ x, Tlv.tlv 4 x ∉ ts := by
    rcases g.hello with ⟨_, h2⟩ | ⟨ts1, f, ts2, h1, _⟩
    · exact h2
    · rw [hn] at h1; cases h1
  have hst : ∀ e, (many e {} (ts ++ [.tlv 4 (f ++ stampPad tf)])).1 = (many e {} ts).1 := by
    intro e
    rw [many_snoc]
    obtain ⟨u, q, i, h, _⟩ := one_hello e (many e {} ts).1 f hf tf ⟨0, 0⟩
    rw [h]
  have hl : (f ++ stampPad tf).length ≤ 12 := by
    rw [List.length_append, hf]; unfold stampPad; split <;> simp [be32_length]
  refine ⟨by rw [hsz]; exact g.lo, by rw [hsz]; exact g.hi, by rw [hby, encAll_snoc, g.bytes], ?_, ?_, ?_, ?_, ?_, ?_, ?_, ?_⟩
  · intro x hx
    rcases List.mem_append.1 hx with h | h
    · exact g.ok x h
    · rw [List.mem_singleton] at h; subst h; exact ⟨by decide, by omega⟩
  · rw [hsz, hby]
    rw [List.length_append]
    show _ + ((f ++ stampPad tf).length + 1 + 1) + _ ≤ _
    omega
  · exact .inr ⟨ts, f, [], by rw [hhe, g.bytes], rfl, hf, hno, by simp⟩
  · intro x hx
    rcases List.mem_append.1 hx with h | h
    · exact g.nopc x h
    · rw [List.mem_singleton] at h; cases h
  · intro e x hx; rw [hst]; exact g.id e x (by rw [← hid]; exact hx)
  · intro e x hx; rw [hst]; exact g.nh e x (by rw [← hnh]; exact hx)
  · intro e x hx; rw [hst]; exact g.pfx e x (by rw [← hpf]; exact hx)
  · intro e; rw [hst]; exact g.v6 e

theorem hello_one (e : PEnv) (s : PState) (fl sq iv : Nat) (h1 : fl < 65536) (h2 : sq < 65536) (h3 : iv < 65536) :
    (one e s 4 ((be16 fl ++ be16 sq ++ be16 iv) ++ stampPad tf)).2 = [.hello (decide (32768 ≤ fl)) sq iv none] := by
  have := (C50_hello e s fl sq iv (stampPad tf) h1 h2 h3).1 (if tf then [.tlv 1 (be32 0)] else [])
    (by cases tf <;> exact ⟨rfl, by decide⟩)
    (by
      intro t b h h1
      cases tf with
      | false => simp at h
      | true =>
        simp only [if_true, List.mem_singleton, Tlv.tlv.injEq] at h
        rw [h.1] at h1
        exact absurd h1 (by decide))
  rw [one_of this]
  cases tf <;> simp [helloTime, bodies]

theorem did_bufferHello (sq i : Nat) (u : Bool) (hsq : sq < 65536)
    (g : Good a tf t.buf ts) (hi : t.index.length = 8) (hn : t.buf.hello = none) :
    ∃ t' ts', bufferHello o c now sq i u t = some t' ∧
      Did a tf o c now t t' ts ts' (fun e => [.hello u sq (min i 65535) none]) := by
  have hln : (if c.timestamps then 12 else 6) = 6 + (stampPad tf).length := by
    rw [hc.ts]; unfold stampPad; cases tf <;> simp [be32_length]
  have hsp : (stampPad tf).length ≤ 6 := by
    unfold stampPad; cases tf <;> simp [be32_length]
  have hiv : (if i > 65535 then 65535 else i) = min i 65535 := by split <;> omega
  have hbody : (htons (if u then 0x8000 else 0) ++ htons sq ++ htons (if i > 0xFFFF then 0xFFFF else i) ++
      if c.timestamps then [1, 4] ++ htonl 0 else [] : Bytes) =
      (be16 (if u then 0x8000 else 0) ++ be16 sq ++ be16 (min i 65535)) ++ stampPad tf := by
    rw [htons_eq, htons_eq, htons_eq, htonl_eq, hiv, hc.ts]; rfl
  unfold bufferHello
  simp only [hbody, hln]
  obtain ⟨t1, base, h1, h2, h3⟩ := ensure_ok hc now g hi ((6 + (stampPad tf).length) + 2) (by omega)
  obtain ⟨g1, hi1, hs1⟩ := h2.good g hi
  have hn1 : t1.buf.hello = none := by
    rcases h2 with ⟨rfl, _⟩ | ⟨h, rfl⟩
    · exact hn
    · rcases g1.hello with ⟨h, _⟩ | ⟨ts1, f, ts2, _, h, _⟩
      · exact h
      · simp at h
  have hf6 : (be16 (if u then 0x8000 else 0) ++ be16 sq ++ be16 (min i 65535)).length = 6 := by
    simp [be16_length]
  have hst : startMessage o c now 4 (6 + (stampPad tf).length) t =
      some { t1 with buf := { t1.buf with bytes := t1.buf.bytes ++ [4, UInt8.ofNat (6 + (stampPad tf).length)] } } := by
    have := start_fit hc now t1 4 (6 + (stampPad tf).length) (by omega)
    rw [show UInt8.ofNat 4 = 4 from rfl] at this
    rw [← this]
    unfold startMessage
    rw [h1]
    have h1' := start_fit hc now t1 4 (6 + (stampPad tf).length) (by omega)
    unfold startMessage at h1'
    simp only [Option.bind_eq_bind, Option.bind_some] at h1' ⊢
    rw [h1']
    unfold Buf.put
    rw [if_pos (by simp; omega)]
    rfl
  generalize hf : be16 (if u then 0x8000 else 0) ++ be16 sq ++ be16 (min i 65535) = f at hf6 ⊢
  rw [hst]
  simp only [Option.bind_eq_bind, Option.bind_some]
  unfold Buf.put
  rw [if_pos (by simp [hf6]; omega)]
  simp only [Option.bind_some]
  obtain ⟨T, R, h4⟩ := end_ok o now (l := t1.buf.bytes) (ty := 4) (len := 6 + (stampPad tf).length) (body := f ++ stampPad tf) (hty := by decide) (hlen := by simp [hf6]) (h255 := by omega)
    (t := { t1 with buf := { t1.buf with
        bytes := t1.buf.bytes ++ [4, UInt8.ofNat (6 + (stampPad tf).length)] ++ (f ++ stampPad tf)
        hello := some ((t1.buf.bytes ++ [4, UInt8.ofNat (6 + (stampPad tf).length)]).length - 2) } })
    (hb := by simp)
  refine ⟨_, base ++ [.tlv 4 (f ++ stampPad tf)], h4, ?_⟩
  refine Grow.did (t1 := t1) ⟨rfl, rfl, rfl, rfl, rfl, ?_⟩ h2 g hi ?_
  · intro e
    rw [its_single]
    have := hello_one hc (tf := tf) e (many e {} base).1 (if u then 0x8000 else 0) sq (min i 65535) (by split <;> omega) hsq (by omega)
    rw [hf] at this
    rw [this]
    cases u <;> rfl
  · refine g1.addHello hc hf6 hn1 (by simp [hf6]; omega) rfl ?_ ?_ rfl rfl rfl
    · simp [Tlv.enc, hf6]
    · simp

theorem did_hello (sq i : Nat) (u fo : Bool) (hsq : sq < 65536)
    (g : Good a tf t.buf ts) (hi : t.index.length = 8) :
    ∃ t' ts', sendHello o c now sq i u fo t = some t' ∧
      Did a tf o c now t t' ts ts' (fun e => told e c t.buf.hello.isSome (.hello sq i u fo)) := by
  unfold sendHello
  cases hh : t.buf.hello with
  | none =>
    simp only [Option.isSome_none, Bool.false_eq_true, if_false]
    have heq : (fun e => told e c false (.hello sq i u fo)) = fun e => [.hello u sq (min i 65535) none] := by
      funext e; simp [told]
    rw [heq]
    exact did_bufferHello hc now sq i u hsq g hi hh
  | some p =>
    simp only [Option.isSome_some, if_true]
    cases fo with
    | false =>
      rw [if_neg (by decide)]
      have heq : (fun e => told e c true (.hello sq i u false)) = fun e => [] := by
        funext e; simp [told]
      rw [heq]
      exact ⟨t, ts, rfl, Did.nothing g hi⟩
    | true =>
      rw [if_pos rfl]
      obtain ⟨t1, h1, h2⟩ := flush_ok hc now g hi
      have hr : Ready o c now tf t ts t1 [] := .inr ⟨h2, rfl⟩
      obtain ⟨g1, hi1, hs1⟩ := hr.good g hi
      have hn1 : t1.buf.hello = none := by
        rcases g1.hello with ⟨h, _⟩ | ⟨ts1, f, ts2, _, h, _⟩
        · exact h
        · simp at h
      obtain ⟨t2, ts2, h3, d⟩ := did_bufferHello hc now sq i u hsq g1 hi1 hn1
      rw [h1]
      simp only [Option.bind_eq_bind, Option.bind_some]
      have heq : (fun e => told e c true (.hello sq i u true)) = fun e => [.hello u sq (min i 65535) none] := by
        funext e; simp [told]
      rw [heq]
      refine ⟨t2, ts2, h3, d.good, d.idx, d.size.trans hs1, ?_⟩
      obtain ⟨t3, base, new, r1, r2, r3, r4, r5, r6, r7⟩ := d.how
      rcases r1 with ⟨rfl, rfl⟩ | ⟨r1, rfl⟩
      · exact ⟨_, _, new, hr, r2, r3, r4, r5, r6, r7⟩
      · cases r1 with
        | empty h => exact ⟨t1, [], new, hr, r2, r3, r4, r5, r6, r7⟩
        | sent tr ex pc ix dr h0 => exact absurd rfl h0

/-- What every operation does. -/
theorem op_ok (op : Snd) (hop : SndOk op) (g : Good a tf t.buf ts) (hi : t.index.length = 8) :
    ∃ t' ts', op.run o c now t = some t' ∧
      Did a tf o c now t t' ts ts' (fun e => told e c t.buf.hello.isSome op) := by
  cases op with
  | ack n i => exact did_ack hc now g hi n i
  | challenge n => exact did_challenge hc now g hi n hop
  | reply n => exact did_reply hc now g hi n hop
  | hello s i u f => exact did_hello hc now s i u f hop g hi
  | update id k s m => exact did_update hc now id k s m hop.1 hop.2.1 hop.2.2.1 g hi
  | retraction s => exact did_retraction hc now g hi s hop
  | ihu r i ad rtt => exact did_ihu hc now g hi r i ad rtt hop.1 hop.2.1 hop.2.2.1 hop.2.2.2
  | request k =>
    obtain ⟨t', ts', h1, h2⟩ := did_request hc now g hi k hop
    refine ⟨t', ts', h1, ?_⟩
    cases k with
    | none => exact h2
    | some k => exact h2
  | seqnoRequest k s id h => exact did_seqno hc now g hi k s id h hop.1 hop.2.1 hop.2.2.1 hop.2.2.2
  | ensure n =>
    obtain ⟨t1, base, h1, h2, h3⟩ := ensure_ok hc now g hi n hop
    refine ⟨t1, base, h1, ?_⟩
    have := (Grow.refl t1 base).did h2 g hi (by rw [List.append_nil]; exact (h2.good g hi).1)
    rw [List.append_nil] at this
    exact this
  | flush =>
    obtain ⟨t1, h1, h2⟩ := flush_ok hc now g hi
    refine ⟨t1, [], h1, ?_⟩
    have hr : Ready o c now tf t ts t1 [] := .inr ⟨h2, rfl⟩
    have := (Grow.refl t1 []).did hr g hi (by rw [List.append_nil]; exact (hr.good g hi).1)
    rw [List.append_nil] at this
    exact this

end
end Babel
