import Verif.Lemmas.IfParams
/-
C62: the parameters of interfaces.
-/
set_option linter.unusedSimpArgs false
set_option linter.unusedVariables false
namespace Babel
open Spec

theorem history_snoc (ops : List (Option (Option IfConf × IfEnv))) (x : Option (Option IfConf × IfEnv)) :
    ifHistory (ops ++ [x]) = ifUpdown (ifHistory ops) x := by
  unfold ifHistory
  rw [List.foldl_append]; rfl

theorem updown_some {i : IfData} (h : ¬ IsUp i) (conf : Option IfConf) (e : IfEnv) :
    ifUpdown i (some (conf, e)) = ifBringUp conf e i := by
  unfold ifUpdown
  exact if_neg h

theorem ifType_wireless (c : IfConf) (e : IfEnv) : ifType c e = IF_TYPE_WIRELESS ↔ Wireless c e := by
  have h01 : IF_TYPE_DEFAULT ≠ IF_TYPE_WIRELESS := by decide
  unfold ifType Wireless
  by_cases h : c.type = IF_TYPE_DEFAULT
  · rw [if_pos h, h]
    cases e.allWireless with
    | true => simp
    | false =>
      simp only [Bool.false_eq_true, if_false, h01, false_or, true_and]
      by_cases h1 : e.wireless < 0
      · simp [h1, h01]; omega
      · by_cases h2 : e.wireless = 0
        · simp [h2, h01]
        · simp [h1, h2]; omega
  · simp [h]

theorem ifType_other (c : IfConf) (e : IfEnv) (t : Nat) (h0 : t ≠ IF_TYPE_DEFAULT) (h2 : t ≠ IF_TYPE_WIRELESS) :
    ifType c e = t ↔ c.type = t := by
  unfold ifType
  by_cases h : c.type = IF_TYPE_DEFAULT
  · rw [if_pos h, h]
    simp only [Ne.symm h0, iff_false]
    split
    · exact Ne.symm h2
    · split
      · exact Ne.symm h0
      · split
        · exact Ne.symm h2
        · exact Ne.symm h0
  · rw [if_neg h]

/-- C62: when an interface is up.  It comes up when it exists, the host can be set up, there is a link-local address and
the multicast group can be joined, and goes down only when told to. -/
theorem C62_up (ops : List (Option (Option IfConf × IfEnv))) (conf : Option IfConf) (e : IfEnv) :
    ¬ IsUp (ifHistory []) ∧ ¬ IsUp (ifHistory (ops ++ [none])) ∧
    (IsUp (ifHistory (ops ++ [some (conf, e)])) ↔ IsUp (ifHistory ops) ∨ Succeeds e) := by
  refine ⟨by decide, ?_, ?_⟩
  · rw [history_snoc]
    unfold ifUpdown
    simp only
    split
    · unfold IsUp
      show ¬ flagTest (flagClear _ _) _ = true
      rw [(flagTest_down _).1]; exact Bool.false_ne_true
    · next h => exact h
  · rw [history_snoc]
    by_cases h : IsUp (ifHistory ops)
    · have : ifUpdown (ifHistory ops) (some (conf, e)) = ifHistory ops := if_pos h
      rw [this]; simp [h]
    · rw [updown_some h]
      unfold IsUp at h ⊢
      rw [bringUp_up]
      simp [h]

/-- C62: an interface that comes up has the parameters of its configuration, and the documented default values for those
that are not given, whatever happened before. -/
theorem C62_params (ops : List (Option (Option IfConf × IfEnv))) (c : IfConf) (e : IfEnv)
    (hdown : ¬ IsUp (ifHistory ops)) (hup : Succeeds e) :
    ∀ i, i = ifHistory (ops ++ [some (some c, e)]) →
    (flagTest i.flags IFB_WIRELESS = true ↔ Wireless c e) ∧
    (flagTest i.flags IFB_SPLIT_HORIZON = true ↔
      c.splitHorizon = CONFIG_YES ∨ c.splitHorizon ≠ CONFIG_NO ∧ c.type = IF_TYPE_WIRED) ∧
    (flagTest i.flags IFB_LQ = true ↔ c.lq = CONFIG_YES ∨ c.lq ≠ CONFIG_NO ∧ Wireless c e) ∧
    (flagTest i.flags IFB_TIMESTAMPS = true ↔
      c.timestamps = CONFIG_YES ∨ c.timestamps ≠ CONFIG_NO ∧ c.type = IF_TYPE_TUNNEL) ∧
    (flagTest i.flags IFB_RFC6126 = true ↔ c.rfc6126 = CONFIG_YES) ∧
    (flagTest i.flags IFB_ACCEPT_BAD_SIGNATURES = true ↔ c.acceptBad = CONFIG_YES) ∧
    (flagTest i.flags IFB_V4VIAV6 = true ↔
      c.v4viav6 = CONFIG_YES ∨ c.v4viav6 ≠ CONFIG_NO ∧ e.safeV4viaV6 = true) ∧
    (c.cost ≠ 0 → i.cost = c.cost) ∧
    (c.cost = 0 → (Wireless c e → i.cost = 256) ∧ (¬ Wireless c e → i.cost = 96)) ∧
    (c.helloInterval ≠ 0 → i.helloInterval = c.helloInterval) ∧
    (c.helloInterval = 0 → (Wireless c e → i.helloInterval = e.wirelessHello) ∧
      (¬ Wireless c e → i.helloInterval = e.wiredHello)) ∧
    (c.updateInterval ≠ 0 → i.updateInterval = c.updateInterval) ∧
    (c.updateInterval = 0 → i.updateInterval = 4 * i.helloInterval) ∧
    i.flushInterval = i.helloInterval / 2 ∧
    (c.rttDecay ≠ 0 → i.rttDecay = c.rttDecay) ∧ (c.rttDecay = 0 → i.rttDecay = 42) ∧
    (c.rttMin ≠ 0 → i.rttMin = c.rttMin) ∧ (c.rttMin = 0 → i.rttMin = 10000) ∧
    (c.rttMax ≠ 0 → i.rttMin < c.rttMax → i.rttMax = c.rttMax) ∧
    (c.rttMax ≠ 0 → c.rttMax ≤ i.rttMin → i.rttMax = i.rttMin + 10000) ∧
    (c.rttMax = 0 → i.rttMin < 120000 → i.rttMax = 120000) ∧
    (c.rttMax = 0 → 120000 ≤ i.rttMin → i.rttMax = i.rttMin + 10000) ∧
    (c.maxRttPenalty ≠ 0 → i.maxRttPenalty = c.maxRttPenalty) ∧
    (c.maxRttPenalty = 0 → c.type = IF_TYPE_TUNNEL → i.maxRttPenalty = 96) ∧
    (c.maxRttPenalty = 0 → c.type ≠ IF_TYPE_TUNNEL → i.maxRttPenalty = 0) ∧
    (e.mtu < 0 → i.bufSize = 1280 - 52) ∧ (0 ≤ e.mtu → e.mtu < 512 → i.bufSize = 512 - 52) ∧
    (512 ≤ e.mtu → (i.bufSize : Int) = e.mtu - 52) ∧
    i.key = c.key := by
  intro i hi
  have hw := ifType_wireless c e
  have hwd := ifType_other c e IF_TYPE_WIRED (by decide) (by decide)
  have htu := ifType_other c e IF_TYPE_TUNNEL (by decide) (by decide)
  have hyn : CONFIG_YES ≠ CONFIG_NO := by decide
  rw [history_snoc, updown_some hdown, bringUp_ok hup] at hi
  simp only [Option.getD_some] at hi
  obtain ⟨j, hj⟩ : ∃ j : IfData, j = { ifHistory ops with flags := flagSet (ifHistory ops).flags IFB_UP, bufSize := sendBufferSize e.mtu } := ⟨_, rfl⟩
  rw [← hj] at hi
  have hf : i.flags = ifFlags c e j.flags := by rw [hi]; rfl
  obtain ⟨_, f1, f2, f3, _, _, f4, f5, f6, f7, _⟩ := ifFlags_test c e j.flags
  rw [← hf] at f1 f2 f3 f4 f5 f6 f7
  have n1 : i.cost = if c.cost ≤ 0 then (if ifType c e = IF_TYPE_WIRELESS then 256 else 96) else c.cost := by rw [hi]; rfl
  have n2 : i.helloInterval = if c.helloInterval > 0 then c.helloInterval else if ifType c e = IF_TYPE_WIRELESS then e.wirelessHello else e.wiredHello := by
    rw [hi]; rfl
  have n3 : i.updateInterval = if c.updateInterval > 0 then c.updateInterval else i.helloInterval * 4 := by rw [hi]; rfl
  have n4 : i.flushInterval = i.helloInterval / 2 := by rw [hi]; rfl
  have n5 : i.rttDecay = if c.rttDecay > 0 then c.rttDecay else 42 := by rw [hi]; rfl
  have n6 : i.rttMin = if c.rttMin > 0 then c.rttMin else 10000 := by rw [hi]; rfl
  have n7 : i.rttMax = if (if c.rttMax > 0 then c.rttMax else 120000) ≤ i.rttMin then i.rttMin + 10000
      else if c.rttMax > 0 then c.rttMax else 120000 := by rw [hi]; rfl
  have n8 : i.maxRttPenalty = if c.maxRttPenalty = 0 ∧ ifType c e = IF_TYPE_TUNNEL then 96 else c.maxRttPenalty := by
    rw [hi]; rfl
  have n9 : i.bufSize = sendBufferSize e.mtu := by rw [hi, hj]; rfl
  have n10 : i.key = c.key := by rw [hi]
  clear hi hj hf
  refine ⟨?_, ?_, ?_, ?_, ?_, ?_, ?_, ?_, ?_, ?_, ?_, ?_, ?_, n4, ?_, ?_, ?_, ?_, ?_, ?_, ?_, ?_, ?_, ?_, ?_, ?_, ?_, ?_, n10⟩
  · rw [f1]; simp [hw]
  · rw [f2]; simp [hwd]
  · rw [f3]; simp [hw]
  · rw [f4]; simp [htu]
  · rw [f5]; simp
  · rw [f6]; simp
  · rw [f7]
    by_cases h : c.v4viav6 = CONFIG_YES
    · simp [h, hyn]
    · simp [h]
  · intro h; rw [n1, if_neg (by omega)]
  · intro h; rw [n1, if_pos (by omega)]
    exact ⟨fun g => if_pos (hw.2 g), fun g => if_neg (fun x => g (hw.1 x))⟩
  · intro h; rw [n2, if_pos (by omega)]
  · intro h; rw [n2, if_neg (by omega)]
    exact ⟨fun g => if_pos (hw.2 g), fun g => if_neg (fun x => g (hw.1 x))⟩
  · intro h; rw [n3, if_pos (by omega)]
  · intro h; rw [n3, if_neg (by omega)]; omega
  · intro h; rw [n5, if_pos (by omega)]
  · intro h; rw [n5, if_neg (by omega)]
  · intro h; rw [n6, if_pos (by omega)]
  · intro h; rw [n6, if_neg (by omega)]
  · intro h g; rw [n7, if_pos (show c.rttMax > 0 by omega), if_neg (by omega)]
  · intro h g; rw [n7, if_pos (show c.rttMax > 0 by omega), if_pos (by omega)]
  · intro h g; rw [n7, if_neg (show ¬ c.rttMax > 0 by omega), if_neg (by omega)]
  · intro h g; rw [n7, if_neg (show ¬ c.rttMax > 0 by omega), if_pos (by omega)]
  · intro h; rw [n8, if_neg (fun g => h g.1)]
  · intro h g; rw [n8, if_pos ⟨h, htu.2 g⟩]
  · intro h g; rw [n8, if_neg (fun x => g (htu.1 x.2)), h]
  all_goals (rw [n9]; unfold sendBufferSize; simp only)
  · intro h; rw [if_pos h]; rfl
  · intro h g; rw [if_neg (show ¬ e.mtu < 0 by omega), if_pos (by omega)]; rfl
  · intro h; rw [if_neg (show ¬ e.mtu < 0 by omega), if_neg (by omega)]; omega

/-- The default values of options `-h` and `-H`. -/
theorem C62_default_hello (v : Nat) : defaultHello none = 4000 ∧ (5 ≤ v → defaultHello (some v) = v) ∧
    (v < 5 → defaultHello (some v) = 5) := by
  refine ⟨by decide, fun h => ?_, fun h => ?_⟩ <;> (show max v 5 = _; omega)

theorem sticky_history (b : Nat) (yes : IfConf → Nat) (hb : b < 16) (hne : b ≠ IFB_UP)
    (h : ∀ c e f, flagTest (ifFlags c e f) b = (decide (yes c = CONFIG_YES) || flagTest f b))
    (ops : List (Option (Option IfConf × IfEnv))) :
    flagTest (ifHistory ops).flags b = true ↔
      ∃ pre conf e post, ops = pre ++ some (conf, e) :: post ∧ ¬ IsUp (ifHistory pre) ∧ HostReady e ∧
        yes (conf.getD {}) = CONFIG_YES := by
  have h0 : flagTest (ifHistory []).flags b = false := by
    show flagTest 0#16 b = false
    rw [flagTest_eq _ _ hb]; simp
  have key : ∀ (l done : List (Option (Option IfConf × IfEnv))), flagTest (ifHistory (done ++ l)).flags b = true ↔
      flagTest (ifHistory done).flags b = true ∨
      ∃ pre conf e post, l = pre ++ some (conf, e) :: post ∧ ¬ IsUp (ifHistory (done ++ pre)) ∧ HostReady e ∧
        yes (conf.getD {}) = CONFIG_YES := by
    intro l
    induction l with
    | nil => intro done; simp
    | cons x l ih =>
      intro done
      have := ih (done ++ [x])
      rw [List.append_assoc] at this
      rw [show done ++ x :: l = done ++ ([x] ++ l) from rfl, this, history_snoc]
      have hx : flagTest (ifUpdown (ifHistory done) x).flags b = true ↔ flagTest (ifHistory done).flags b = true ∨
          ∃ conf e, x = some (conf, e) ∧ ¬ IsUp (ifHistory done) ∧ HostReady e ∧ yes (conf.getD {}) = CONFIG_YES := by
        cases x with
        | none =>
          unfold ifUpdown
          simp only
          split
          · show flagTest (flagClear _ _) b = true ↔ _
            rw [(flagTest_down _).2 b hb hne]; simp
          · simp
        | some ce =>
          obtain ⟨conf, e⟩ := ce
          by_cases hu : IsUp (ifHistory done)
          · have : ifUpdown (ifHistory done) (some (conf, e)) = ifHistory done := if_pos hu
            rw [this]; simp [hu]
          · rw [updown_some hu, bringUp_sticky conf e _ b yes hb hne (fun f => h _ _ f)]
            constructor
            · rintro (g | ⟨g1, g2⟩)
              · exact .inl g
              · exact .inr ⟨conf, e, rfl, hu, g1, g2⟩
            · rintro (g | ⟨conf', e', g0, _, g1, g2⟩)
              · exact .inl g
              · simp only [Option.some.injEq, Prod.mk.injEq] at g0
                obtain ⟨rfl, rfl⟩ := g0
                exact .inr ⟨g1, g2⟩
      rw [hx]
      constructor
      · rintro ((g | ⟨conf, e, rfl, g1, g2, g3⟩) | ⟨pre, conf, e, post, rfl, g1, g2, g3⟩)
        · exact .inl g
        · exact .inr ⟨[], conf, e, l, rfl, by simpa using g1, g2, g3⟩
        · exact .inr ⟨x :: pre, conf, e, post, rfl, by simpa using g1, g2, g3⟩
      · rintro (g | ⟨pre, conf, e, post, g0, g1, g2, g3⟩)
        · exact .inl (.inl g)
        · cases pre with
          | nil =>
            simp only [List.nil_append, List.cons.injEq] at g0
            obtain ⟨rfl, rfl⟩ := g0
            exact .inl (.inr ⟨conf, e, rfl, by simpa using g1, g2, g3⟩)
          | cons y pre =>
            simp only [List.cons_append, List.cons.injEq] at g0
            obtain ⟨rfl, rfl⟩ := g0
            exact .inr ⟨pre, conf, e, post, rfl, by simpa using g1, g2, g3⟩
  have := key ops []
  simp only [List.nil_append, h0, Bool.false_eq_true, false_or] at this
  exact this

/-- C62: three options, once set, remain so until the interface is removed: a configuration which set them has been
used at some time. -/
theorem C62_sticky (ops : List (Option (Option IfConf × IfEnv))) :
    (flagTest (ifHistory ops).flags IFB_UNICAST = true ↔
      ∃ pre conf e post, ops = pre ++ some (conf, e) :: post ∧ ¬ IsUp (ifHistory pre) ∧ HostReady e ∧
        (conf.getD {}).unicast = CONFIG_YES) ∧
    (flagTest (ifHistory ops).flags IFB_FARAWAY = true ↔
      ∃ pre conf e post, ops = pre ++ some (conf, e) :: post ∧ ¬ IsUp (ifHistory pre) ∧ HostReady e ∧
        (conf.getD {}).faraway = CONFIG_YES) ∧
    (flagTest (ifHistory ops).flags IFB_PROBE_MTU = true ↔
      ∃ pre conf e post, ops = pre ++ some (conf, e) :: post ∧ ¬ IsUp (ifHistory pre) ∧ HostReady e ∧
        (conf.getD {}).probeMtu = CONFIG_YES) :=
  ⟨sticky_history _ IfConf.unicast (by decide) (by decide) (fun c e f => (ifFlags_test c e f).2.2.2.2.2.1) ops,
   sticky_history _ IfConf.faraway (by decide) (by decide) (fun c e f => (ifFlags_test c e f).2.2.2.2.1) ops,
   sticky_history _ IfConf.probeMtu (by decide) (by decide) (fun c e f => (ifFlags_test c e f).2.2.2.2.2.2.2.2.2.2) ops⟩

/-- C62: in particular they have the configured values when the interface comes up for the first time. -/
theorem C62_unicast_partial (c : IfConf) (e : IfEnv) (hup : Succeeds e) :
    (flagTest (ifHistory [some (some c, e)]).flags IFB_UNICAST = true ↔ c.unicast = CONFIG_YES) ∧
    (flagTest (ifHistory [some (some c, e)]).flags IFB_FARAWAY = true ↔ c.faraway = CONFIG_YES) ∧
    (flagTest (ifHistory [some (some c, e)]).flags IFB_PROBE_MTU = true ↔ c.probeMtu = CONFIG_YES) := by
  have h0 : ∀ b, b < 16 → flagTest (0 : BitVec 16) b = false := fun b hb => by
    show flagTest 0#16 b = false
    rw [flagTest_eq _ _ hb]; simp
  have hd : ¬ IsUp IfData.new := by decide
  have he : ifHistory [some (some c, e)] = ifBringUp (some c) e .new := updown_some hd (some c) e
  have hc : HostReady e := ⟨hup.1, hup.2.1⟩
  rw [he, bringUp_sticky _ _ _ _ IfConf.unicast (by decide) (by decide) (fun f => (ifFlags_test _ e f).2.2.2.2.2.1),
    bringUp_sticky _ _ _ _ IfConf.faraway (by decide) (by decide) (fun f => (ifFlags_test _ e f).2.2.2.2.1),
    bringUp_sticky _ _ _ _ IfConf.probeMtu (by decide) (by decide) (fun f => (ifFlags_test _ e f).2.2.2.2.2.2.2.2.2.2)]
  have g1 : flagTest IfData.new.flags IFB_UNICAST = false := h0 _ (by decide)
  have g2 : flagTest IfData.new.flags IFB_FARAWAY = false := h0 _ (by decide)
  have g3 : flagTest IfData.new.flags IFB_PROBE_MTU = false := h0 _ (by decide)
  rw [g1, g2, g3]
  simp [hc]

/-- C62: what holds of an interface that is up, at any time. -/
theorem C62_sane (ops : List (Option (Option IfConf × IfEnv)))
    (hh : ∀ conf e, some (conf, e) ∈ ops → 5 ≤ e.wirelessHello ∧ 5 ≤ e.wiredHello) :
    ∀ i, i = ifHistory ops → (IsUp i → 0 < i.cost ∧ 0 < i.helloInterval ∧ 2 * i.flushInterval ≤ i.helloInterval ∧
      0 < i.updateInterval ∧ i.rttMin < i.rttMax ∧ 0 < i.rttDecay ∧ 460 ≤ i.bufSize) ∧ (¬ IsUp i → i.bufSize = 0) := by
  have key : ∀ ops : List (Option (Option IfConf × IfEnv)),
      (∀ conf e, some (conf, e) ∈ ops.reverse → 5 ≤ e.wirelessHello ∧ 5 ≤ e.wiredHello) →
      (IsUp (ifHistory ops.reverse) → 0 < (ifHistory ops.reverse).cost ∧ 0 < (ifHistory ops.reverse).helloInterval ∧
        2 * (ifHistory ops.reverse).flushInterval ≤ (ifHistory ops.reverse).helloInterval ∧
        0 < (ifHistory ops.reverse).updateInterval ∧ (ifHistory ops.reverse).rttMin < (ifHistory ops.reverse).rttMax ∧
        0 < (ifHistory ops.reverse).rttDecay ∧ 460 ≤ (ifHistory ops.reverse).bufSize) ∧
      (¬ IsUp (ifHistory ops.reverse) → (ifHistory ops.reverse).bufSize = 0) := by
    intro ops
    induction ops with
    | nil => intro _; exact ⟨fun h => absurd h (by decide), fun _ => rfl⟩
    | cons x ops ih =>
      intro hh
      have ih := ih (fun conf e h => hh conf e (by simp at h ⊢; exact .inl h))
      simp only [List.reverse_cons]
      cases x with
      | none =>
        refine ⟨fun h => absurd h (C62_up ops.reverse none ⟨false, false, 0, 0, 0, 0, 0, 0, false, 0, 0⟩).2.1, fun _ => ?_⟩
        rw [history_snoc]
        unfold ifUpdown
        simp only
        split
        · rfl
        · next h => exact ih.2 h
      | some ce =>
        obtain ⟨conf, e⟩ := ce
        by_cases hu : IsUp (ifHistory ops.reverse)
        · have : ifHistory (ops.reverse ++ [some (conf, e)]) = ifHistory ops.reverse := by
            rw [history_snoc]; exact if_pos hu
          rw [this]; exact ih
        · by_cases hs : Succeeds e
          · have hval : ifHistory (ops.reverse ++ [some (conf, e)]) = ifHistory (ops.reverse ++ [some (some (conf.getD {}), e)]) := by
              rw [history_snoc, history_snoc, updown_some hu, updown_some hu, bringUp_ok hs, bringUp_ok hs]; rfl
            rw [hval]
            have hup : IsUp (ifHistory (ops.reverse ++ [some (some (conf.getD {}), e)])) :=
              (C62_up ops.reverse _ e).2.2.2 (.inr hs)
            refine ⟨fun _ => ?_, fun h => absurd hup h⟩
            obtain ⟨hh1, hh2⟩ := hh conf e (by simp)
            obtain ⟨c, hc⟩ : ∃ c, c = conf.getD {} := ⟨_, rfl⟩
            rw [← hc]
            obtain ⟨-, -, -, -, -, -, -, a1, a2, a3, a4, a5, a6, a7, a8, a9, a10, a11, a12, a13, a14, a15, -, -, -, b1, b2, b3, -⟩ :=
              C62_params ops.reverse c e hu hs _ rfl
            generalize ifHistory (ops.reverse ++ [some (some c, e)]) = i at *
            have hhello : 0 < i.helloInterval := by
              by_cases h : c.helloInterval = 0
              · by_cases hw : Wireless c e
                · rw [(a4 h).1 hw]; omega
                · rw [(a4 h).2 hw]; omega
              · rw [a3 h]; omega
            refine ⟨?_, hhello, by omega, ?_, ?_, ?_, ?_⟩
            · by_cases h : c.cost = 0
              · by_cases hw : Wireless c e
                · rw [(a2 h).1 hw]; omega
                · rw [(a2 h).2 hw]; omega
              · rw [a1 h]; omega
            · by_cases h : c.updateInterval = 0
              · rw [a6 h]; omega
              · rw [a5 h]; omega
            · by_cases h : c.rttMax = 0
              · by_cases g : i.rttMin < 120000
                · rw [a14 h g]; exact g
                · rw [a15 h (by omega)]; omega
              · by_cases g : i.rttMin < c.rttMax
                · rw [a12 h g]; exact g
                · rw [a13 h (by omega)]; omega
            · by_cases h : c.rttDecay = 0
              · rw [a9 h]; omega
              · rw [a8 h]; omega
            · by_cases h : e.mtu < 0
              · rw [b1 h]; omega
              · by_cases g : e.mtu < 512
                · rw [b2 (by omega) g]; omega
                · have := b3 (by omega); omega
          · have hval : ifHistory (ops.reverse ++ [some (conf, e)]) = ifBringUp conf e (ifHistory ops.reverse) := by
              rw [history_snoc, updown_some hu]
            rw [hval]
            refine ⟨fun h => absurd ((bringUp_up _ _ _).1 h) hs, fun _ => (bringUp_fail hs).2.1⟩
  intro i hi
  have := key ops.reverse (by rw [List.reverse_reverse]; exact hh)
  rw [List.reverse_reverse] at this
  rw [hi]; exact this

/-- C62: what checking an interface does.  Afterwards its index is right; it is up only if it exists and is operational,
and it is up if moreover it could be brought up; if its index has changed, it has been brought down. -/
theorem C62_check (conf : Option IfConf) (e : IfEnv) (index : Nat) (operational : Int) (old : Nat) (i : IfData) :
    ∀ r, r = ifCheck conf e index operational (old, i) →
    r.1 = index ∧
    (IsUp r.2 ↔ index ≠ 0 ∧ 0 < operational ∧ ((IsUp i ∧ index = old) ∨ Succeeds { e with ifindex := index })) ∧
    (IsUp i → index = old → 0 < operational → index ≠ 0 → r.2 = i) ∧
    (IsUp r.2 → ¬ (IsUp i ∧ index = old) →
      ∃ j, (j = i ∨ j = ifBringDown i) ∧ ¬ IsUp j ∧ r.2 = ifBringUp conf { e with ifindex := index } j) := by
  intro r hr
  have hd : ∀ j : IfData, ¬ IsUp (ifBringDown j) := fun j h => by
    have : flagTest (flagClear j.flags IFB_UP) IFB_UP = true := h
    rw [(flagTest_down _).1] at this; cases this
  -- the state after the index has been checked
  obtain ⟨j, hj⟩ : ∃ j, j = if index ≠ old then ifUpdown i none else i := ⟨_, rfl⟩
  have hr' : r = if decide ((if index > 0 then operational else 0) > 0) ≠ flagTest j.flags IFB_UP then
      (index, ifUpdown j (if (if index > 0 then operational else 0) > 0 then some (conf, { e with ifindex := index }) else none))
      else (index, j) := by rw [hr, hj]; rfl
  have hj1 : IsUp j ↔ IsUp i ∧ index = old := by
    by_cases h : index = old
    · rw [hj, if_neg (by simpa using h)]; simp [h]
    · rw [hj, if_pos h]
      constructor
      · intro g
        unfold ifUpdown at g
        simp only at g
        split at g
        · exact absurd g (hd _)
        · next n => exact absurd g n
      · intro g; exact absurd g.2 h
  have hj2 : ¬ IsUp j → j = i ∨ j = ifBringDown i := by
    intro g
    by_cases h : index = old
    · left; rw [hj, if_neg (by simpa using h)]
    · rw [hj, if_pos h]
      unfold ifUpdown
      simp only
      split
      · right; rfl
      · left; rfl
  have hj3 : index = old → j = i := fun h => by rw [hj, if_neg (by simpa using h)]
  have hrc : (if index > 0 then operational else 0) > 0 ↔ index ≠ 0 ∧ 0 < operational := by
    by_cases h : index > 0
    · rw [if_pos h]; constructor
      · intro g; exact ⟨by omega, g⟩
      · intro g; exact g.2
    · rw [if_neg h]
      constructor
      · intro g; omega
      · intro g; omega
  by_cases ho : (if index > 0 then operational else 0) > 0
  · have ho' := hrc.1 ho
    by_cases hu : IsUp j
    · have hu' : flagTest j.flags IFB_UP = true := hu
      rw [decide_eq_true ho, hu', if_neg (by simp)] at hr'
      rw [hr']
      exact ⟨rfl, ⟨fun _ => ⟨ho'.1, ho'.2, .inl (hj1.1 hu)⟩, fun _ => hu⟩, fun _ h _ _ => hj3 h,
        fun _ h => absurd (hj1.1 hu) h⟩
    · have hu' : flagTest j.flags IFB_UP = false := by simpa [IsUp] using hu
      rw [decide_eq_true ho, hu', if_pos (by simp), if_pos ho, updown_some hu] at hr'
      rw [hr']
      refine ⟨rfl, ?_, ?_, ?_⟩
      · show flagTest (ifBringUp _ _ _).flags IFB_UP = true ↔ _
        rw [bringUp_up]
        constructor
        · intro h; exact ⟨ho'.1, ho'.2, .inr h⟩
        · rintro ⟨_, _, h | h⟩
          · exact absurd (hj1.2 h) hu
          · exact h
      · intro h g _ _; exact absurd (hj1.2 ⟨h, g⟩) hu
      · intro _ _; exact ⟨j, hj2 hu, hu, rfl⟩
  · have ho' : ¬ (index ≠ 0 ∧ 0 < operational) := fun h => ho (hrc.2 h)
    have hdown : r.1 = index ∧ ¬ IsUp r.2 := by
      by_cases hu : IsUp j
      · have hu' : flagTest j.flags IFB_UP = true := hu
        rw [decide_eq_false ho, hu', if_pos (by simp), if_neg ho] at hr'
        rw [hr']
        refine ⟨rfl, ?_⟩
        show ¬ IsUp (if flagTest j.flags IFB_UP then ifBringDown j else j)
        rw [if_pos hu']; exact hd j
      · have hu' : flagTest j.flags IFB_UP = false := by simpa [IsUp] using hu
        rw [decide_eq_false ho, hu', if_neg (by simp)] at hr'
        rw [hr']; exact ⟨rfl, hu⟩
    refine ⟨hdown.1, ⟨fun h => absurd h hdown.2, fun h => absurd ⟨h.1, h.2.1⟩ ho'⟩, fun _ _ h1 h2 => absurd ⟨h2, h1⟩ ho',
      fun h => absurd h hdown.2⟩

/-- C62: the interval announced in updates is the update interval, rounded to hundredths of a second, if it is at most
655.35 seconds. -/
theorem C62_interval_partial (i : IfData) (h : i.updateInterval ≤ 655354) :
    10 * updateIntervalField i ≤ i.updateInterval + 5 ∧ i.updateInterval ≤ 10 * updateIntervalField i + 4 := by
  unfold updateIntervalField; omega

namespace Demo62

/-- An interface that exists and is operational. -/
def env : IfEnv := ⟨false, false, 4000, 4000, 3, 1, 1500, 0, true, 0, 0⟩

/-- `interface eth0 type wired hello-interval 200`. -/
def wired : IfConf := { type := IF_TYPE_WIRED, helloInterval := 200000 }

example : Succeeds env ∧ ¬ IsUp (ifHistory []) ∧ IsUp (ifHistory [some (some wired, env)]) ∧
    (ifHistory [some (some wired, env)]).cost = 96 ∧ (ifHistory [some (some wired, env)]).bufSize = 1448 ∧
    (ifHistory [some (none, { env with wireless := 1 })]).cost = 256 ∧
    (ifHistory [some (some { type := IF_TYPE_TUNNEL, rttMin := 200000 }, env)]).rttMax = 210000 := by decide

example : ∀ conf e, some (conf, e) ∈ [some (some wired, env), none, some (none, env)] → 5 ≤ e.wirelessHello ∧ 5 ≤ e.wiredHello := by
  intro conf e h
  simp only [List.mem_cons, Option.some.injEq, Prod.mk.injEq, reduceCtorEq, List.not_mem_nil, or_false, false_or] at h
  rcases h with ⟨_, rfl⟩ | ⟨_, rfl⟩ <;> decide

/-- An interface that has been renumbered. -/
example : ifCheck (some wired) env 7 1 (3, ifHistory [some (some wired, env)]) =
    (7, ifHistory [some (some wired, env), none, some (some wired, { env with ifindex := 7 })]) ∧
    ¬ IsUp (ifCheck (some wired) env 3 0 (3, ifHistory [some (some wired, env)])).2 := by decide

end Demo62

/-- C62 is false of `unicast false`: the option stays set when the configuration of the interface is changed before it comes
up again. -/
theorem C62_unicast_false : ¬ ∀ (ops : List (Option (Option IfConf × IfEnv))) (c : IfConf) (e : IfEnv), ¬ IsUp (ifHistory ops) →
    Succeeds e → (flagTest (ifHistory (ops ++ [some (some c, e)])).flags IFB_UNICAST = true ↔ c.unicast = CONFIG_YES) := by
  intro h
  have := (h [some (some { unicast := CONFIG_YES }, Demo62.env), none] { unicast := CONFIG_NO } Demo62.env (by decide) (by decide)).1
    (by decide)
  exact absurd this (by decide)

/-- C62 is false of option `-s`, which should disable split horizon on wired interfaces: it has no effect. -/
theorem C62_s_false : (∀ (c : IfConf) (e : IfEnv) (i : IfData) (b : Bool),
      ifBringUp (some c) { e with noSplitHorizon := b } i = ifBringUp (some c) e i) ∧
    ¬ ∀ (c : IfConf) (e : IfEnv), e.noSplitHorizon = true → c.splitHorizon = CONFIG_DEFAULT → Succeeds e →
      flagTest (ifHistory [some (some c, e)]).flags IFB_SPLIT_HORIZON = false := by
  refine ⟨fun _ _ _ _ => rfl, fun h => ?_⟩
  have := h Demo62.wired { Demo62.env with noSplitHorizon := true } rfl rfl (by decide)
  exact absurd this (by decide)

/-- C62 is false of the announced interval: with a hello interval of 200 seconds, and no update interval given, updates are sent
every 800 seconds but announce 144.64 seconds. -/
theorem C62_interval_false : ¬ ∀ (c : IfConf) (e : IfEnv), Succeeds e → c.helloInterval ≤ 655350 → c.updateInterval ≤ 655350 →
    ∀ i, i = ifHistory [some (some c, e)] → i.updateInterval ≤ 10 * updateIntervalField i + 9 := by
  intro h
  have := h Demo62.wired Demo62.env (by decide) (by decide) (by decide) _ rfl
  exact absurd this (by decide)

end Babel
