import Verif.Lemmas.Reject3
/-
Files that are refused.
-/
set_option linter.unusedSimpArgs false
set_option linter.unusedVariables false
namespace Babel
open Spec

theorem clauses_stop {α : Type} {T : α → Bytes → Prop} {l : List α} {t o : Bytes} (h : Clauses T l t) (ho : Stop o) :
    Stop (t ++ o) := by
  cases h with
  | nil => exact ho
  | cons hg h1 h2 => rw [List.append_assoc]; exact hg.stop _

theorem keyLoop_then {l : List KClause} {t o : Bytes} (h : Clauses KText l t) (ho : Stop o)
    (hbad : ∀ fuel k, keyLoop (fuel + 1) k o = .error .bad) (fuel : Nat) (k : KeyAcc) (hf : t.length < fuel) :
    keyLoop fuel k (t ++ o) = .error .bad := by
  induction h generalizing fuel k with
  | nil =>
    rcases fuel with _ | fuel
    · simp at hf
    · exact hbad fuel k
  | @cons x xs g t u hg ht hu ih =>
    rcases fuel with _ | fuel
    · simp at hf
    · have hl : u.length < fuel := by
        have := hg.1
        simp only [List.length_append] at hf
        rcases g with _ | ⟨c, g⟩
        · exact absurd rfl this
        · simp only [List.length_cons] at hf; omega
      have hstop := clauses_stop hu ho
      have key : ∀ kw body, t = ascii kw ++ body → Word (ascii kw) → Stop (body ++ (u ++ o)) →
          keyLoop (fuel + 1) k (g ++ (t ++ u) ++ o) =
            (match keyword keyWords (ascii kw) with
            | none => .error .bad
            | some .id => do
              let (id, r) ← getword (body ++ (u ++ o))
              keyLoop fuel { k with id := some id } r
            | some .type => do
              let (t, r) ← getword (body ++ (u ++ o))
              match keyword authWords t with
              | none => throw .bad
              | some t => keyLoop fuel { k with type := t } r
            | some .value => do
              let (v, r) ← gethex (body ++ (u ++ o))
              keyLoop fuel { k with value := v } r) := by
        intro kw body ht hword hs
        have e1 : g ++ (t ++ u) ++ o = g ++ (ascii kw ++ (body ++ (u ++ o))) := by
          simp only [List.append_assoc, ht]
        rw [keyLoop.eq_2, e1]
        simp only [skipWs_lexeme g _ _ hg.2 hword]
        rw [if_neg (by rw [atEol_word _ hword]; simp), bind_ok (getword_word _ _ hword hs)]
        rfl
      have hid : Word (ascii "id") := word_kw _ (by decide)
      have htype : Word (ascii "type") := word_kw _ (by decide)
      have hvalue : Word (ascii "value") := word_kw _ (by decide)
      cases ht with
      | @id g' w hg' hw =>
        rw [key "id" (g' ++ w) rfl hid (by rw [List.append_assoc]; exact hg'.stop _)]
        rw [show keyword keyWords (ascii "id") = some .id by decide]
        simp only
        rw [List.append_assoc, bind_ok (getword_text _ _ _ hg'.2 hw hstop)]
        exact ih fuel _ hl
      | @sha256 g' hg' =>
        rw [key "type" (g' ++ ascii "hmac-sha256") rfl htype (by rw [List.append_assoc]; exact hg'.stop _)]
        rw [show keyword keyWords (ascii "type") = some .type by decide]
        simp only
        rw [List.append_assoc, bind_ok (getword_text _ _ _ hg'.2 word_auth.1 hstop)]
        simp only
        rw [show keyword authWords (ascii "hmac-sha256") = some 1 by decide]
        exact ih fuel _ hl
      | @blake2s g' hg' =>
        rw [key "type" (g' ++ ascii "blake2s128") rfl htype (by rw [List.append_assoc]; exact hg'.stop _)]
        rw [show keyword keyWords (ascii "type") = some .type by decide]
        simp only
        rw [List.append_assoc, bind_ok (getword_text _ _ _ hg'.2 word_auth.2 hstop)]
        simp only
        rw [show keyword authWords (ascii "blake2s128") = some 2 by decide]
        exact ih fuel _ hl
      | @value g' w v hg' hw hv =>
        rw [key "value" (g' ++ w) rfl hvalue (by rw [List.append_assoc]; exact hg'.stop _)]
        rw [show keyword keyWords (ascii "value") = some .value by decide]
        simp only
        rw [List.append_assoc, bind_ok (gethex_text hg'.2 hw hv hstop)]
        exact ih fuel _ hl

/-! ### Options -/

theorem option_missing (L : Libc) : ∀ kw ∈ (optionArgs L).map (·.1), ∃ k, keyword optionWords (ascii kw) = some k ∧
    keyword lineWords (ascii kw) = none ∧ ∀ r, LineOver r → ∀ o, optionValue L o k r = .error .bad := by
  intro kw hkw
  have hk : ∀ kw ∈ (optionArgs L).map (·.1), (keyword optionWords (ascii kw)).isSome = true ∧ keyword lineWords (ascii kw) = none := by
    simp only [optionArgs, List.map_cons, List.map_nil]
    decide +kernel
  have hk := hk kw hkw
  rcases e : keyword optionWords (ascii kw) with _ | k
  · rw [e] at hk; simp at hk
  · refine ⟨k, rfl, hk.2, fun r hr f => ?_⟩
    cases k <;> simp only [optionValue, getport, getyes, getint, getbool, getip, getid, getword_over hr, getstring_over hr] <;> rfl

theorem getport_bad {g w r : Bytes} (hg : ∀ c ∈ g, BlankC c) (h : BadNum 1 65534 w) (hr : Stop r) :
    getport (g ++ (w ++ r)) = .error .bad := by
  unfold getport
  rcases getint_bad hg h hr with e | ⟨v, e, hv1, hv2⟩
  · rw [e]; rfl
  · rw [bind_ok e]
    simp only
    rw [if_pos (by omega)]
    rfl

theorem getyes_bad {g w r : Bytes} (hg : ∀ c ∈ g, BlankC c) (h : BadBool w) (hr : Stop r) :
    getyes (g ++ (w ++ r)) = .error .bad := by
  unfold getyes
  rw [getbool_bad hg h hr]; rfl

theorem option_value {L : Libc} {kw : String} {B : Bytes → Prop} (h : (kw, B) ∈ optionArgs L)
    {g w r : Bytes} (hg : Gap g) (hw : B w) (hr : Stop r) : ∃ k, keyword optionWords (ascii kw) = some k ∧
    ∀ o, optionValue L o k (g ++ (w ++ r)) = .error .bad := by
  simp only [optionArgs, List.mem_cons, Prod.mk.injEq, List.not_mem_nil, or_false] at h
  rcases h with ⟨rfl, rfl⟩ | ⟨rfl, rfl⟩ | ⟨rfl, rfl⟩ | ⟨rfl, rfl⟩ | ⟨rfl, rfl⟩ | ⟨rfl, rfl⟩ | ⟨rfl, rfl⟩ | ⟨rfl, rfl⟩ |
    ⟨rfl, rfl⟩ | ⟨rfl, rfl⟩ | ⟨rfl, rfl⟩ | ⟨rfl, rfl⟩ | ⟨rfl, rfl⟩ | ⟨rfl, rfl⟩ | ⟨rfl, rfl⟩ | ⟨rfl, rfl⟩ | ⟨rfl, rfl⟩ |
    ⟨rfl, rfl⟩ | ⟨rfl, rfl⟩ | ⟨rfl, rfl⟩ | ⟨rfl, rfl⟩ | ⟨rfl, rfl⟩ | ⟨rfl, rfl⟩ | ⟨rfl, rfl⟩
  · exact ⟨.protocolPort, by decide +kernel, fun f => by simp only [optionValue, getport_bad hg.2 hw hr]; rfl⟩
  · exact ⟨.kernelPriority, by decide +kernel, fun f => by simp only [optionValue, getport_bad hg.2 hw hr]; rfl⟩
  · exact ⟨.allowDuplicates, by decide +kernel, fun f => by simp only [optionValue, getport_bad hg.2 hw hr]; rfl⟩
  · exact ⟨.localPort, by decide +kernel, fun f => by simp only [optionValue, getport_bad hg.2 hw hr]; rfl⟩
  · exact ⟨.localPortRw, by decide +kernel, fun f => by simp only [optionValue, getport_bad hg.2 hw hr]; rfl⟩
  · exact ⟨.exportTable, by decide +kernel, fun f => by simp only [optionValue, getport_bad hg.2 hw hr]; rfl⟩
  · exact ⟨.importTable, by decide +kernel, fun f => by simp only [optionValue, getport_bad hg.2 hw hr]; rfl⟩
  · exact ⟨.kernelCheckInterval, by decide +kernel, fun f => by simp only [optionValue, getport_bad hg.2 hw hr]; rfl⟩
  · exact ⟨.shutdownDelay, by decide +kernel, fun f => by simp only [optionValue, getport_bad hg.2 hw hr]; rfl⟩
  · exact ⟨.linkDetect, by decide +kernel, fun f => by simp only [optionValue, getyes_bad hg.2 hw hr]; rfl⟩
  · exact ⟨.randomId, by decide +kernel, fun f => by simp only [optionValue, getyes_bad hg.2 hw hr]; rfl⟩
  · exact ⟨.daemonise, by decide +kernel, fun f => by simp only [optionValue, getyes_bad hg.2 hw hr]; rfl⟩
  · exact ⟨.skipKernelSetup, by decide +kernel, fun f => by simp only [optionValue, getyes_bad hg.2 hw hr]; rfl⟩
  · exact ⟨.subtrees, by decide +kernel, fun f => by simp only [optionValue, getyes_bad hg.2 hw hr]; rfl⟩
  · exact ⟨.reflect, by decide +kernel, fun f => by simp only [optionValue, getyes_bad hg.2 hw hr]; rfl⟩
  · exact ⟨.group, by decide +kernel, fun f => by simp only [optionValue, getip_bad hg.2 hw hr]; rfl⟩
  · exact ⟨.routerId, by decide +kernel, fun f => by simp only [optionValue, getid_bad hg.2 hw hr]; rfl⟩
  · refine ⟨.debug, by decide +kernel, fun f => ?_⟩
    simp only [optionValue]
    rcases getint_bad hg.2 hw hr with e | ⟨v, e, hv1, hv2⟩
    · rw [e]; rfl
    · rw [bind_ok e]
      simp only
      rw [if_pos (by omega)]
      rfl
  · refine ⟨.halfLife, by decide +kernel, fun f => ?_⟩
    simp only [optionValue]
    rcases getint_bad hg.2 hw hr with e | ⟨v, e, hv1, hv2⟩
    · rw [e]; rfl
    · rw [bind_ok e]
      simp only
      rw [if_pos (by omega)]
      rfl
  all_goals exact hw.elim

theorem skipEol_bad {g w r : Bytes} (hg : ∀ c ∈ g, BlankC c) (hw : Word w) : skipEol (g ++ (w ++ r)) = .error .bad := by
  unfold skipEol
  simp only [skipWs_lexeme g w r hg hw, atEol_word r hw, Bool.false_eq_true, if_false]

/-! ### Lines -/

theorem parseLine_bad {L : Libc} (hL : LibcOk L) {s : Conf} (hs : s.final = false) {known : Bytes → Prop}
    (hk : ∀ id, known id ↔ s.keys.any (·.id == id) = true) {g o : Bytes} (hg : ∀ c ∈ g, BlankC c) (h : BadLine L known o) :
    (parseLine L false s (g ++ o)).2 = .error .bad := by
  have hfin : ¬ (s.final = true ∧ ¬ s.opts.localWrite = true) := by simp [hs]
  have start : ∀ (w r : Bytes), Word w → Stop r → parseLine L false s (g ++ (w ++ r)) = parseLine L false s (w ++ r) ∧
      atEol (skipWs (w ++ r)) = false ∧ getword (skipWs (w ++ r)) = .ok (w, r) :=
    fun w r hw hr => parseLine_start hg hw hr
  have opt : ∀ (w r : Bytes), Word w → Stop r → keyword lineWords w = none →
      (∀ o, (∀ f, keyword optionWords w ≠ some f) ∨ (∃ k, keyword optionWords w = some k ∧
        (optionValue L o k r = .error .bad ∨ ∃ p u, optionValue L o k r = .ok (p, u) ∧ skipEol u = .error .bad))) →
      (parseLine L false s (g ++ (w ++ r))).2 = .error .bad := by
    intro w r hw hr hl ho
    obtain ⟨e1, e2, e3⟩ := start w r hw hr
    rw [e1]
    unfold parseLine
    simp only [e2, Bool.false_eq_true, if_false, e3, hl, if_neg hfin]
    unfold parseOption
    rcases ho s.opts with h | ⟨k, h, h2⟩
    · rcases hx : keyword optionWords w with _ | k
      · rfl
      · exact absurd hx (h k)
    · rw [h]
      simp only [hs, Bool.false_eq_true, false_and, if_false]
      rcases h2 with h2 | ⟨p, u, h2, h3⟩
      · rw [h2]; rfl
      · rw [h2]
        simp only [h3]
        rfl
  have fil : ∀ (c : Chain) (r : Bytes), Stop r → parseFilter L r = .error .bad →
      (parseLine L false s (g ++ (ascii c.word ++ r))).2 = .error .bad := by
    intro c r hr hp
    have hw : Word (ascii c.word) := word_kw _ (by cases c <;> decide)
    obtain ⟨e1, e2, e3⟩ := start _ _ hw hr
    have hf : ∀ add, (filterLine L s add r).2 = .error .bad := by
      intro add
      unfold filterLine
      rw [if_neg (by simp [hs]), hp]
    rw [e1]
    unfold parseLine
    simp only [e2, Bool.false_eq_true, if_false, e3]
    cases c
    · rw [show keyword lineWords (ascii Chain.inp.word) = some .inp by decide]
      simp only [if_neg hfin]
      exact hf _
    · rw [show keyword lineWords (ascii Chain.out.word) = some .out by decide]
      simp only [if_neg hfin]
      exact hf _
    · rw [show keyword lineWords (ascii Chain.redistribute.word) = some .redistribute by decide]
      simp only [if_neg hfin]
      exact hf _
    · rw [show keyword lineWords (ascii Chain.install.word) = some .install by decide]
      simp only [if_neg hfin]
      exact hf _
  have inf : ∀ (r : Bytes), Stop r → parseIfconf s.keys r = .error .bad →
      (parseLine L false s (g ++ (ascii "interface" ++ r))).2 = .error .bad := by
    intro r hr hp
    have hw : Word (ascii "interface") := word_kw _ (by decide)
    obtain ⟨e1, e2, e3⟩ := start _ _ hw hr
    rw [e1]
    unfold parseLine
    simp only [e2, Bool.false_eq_true, if_false, e3]
    rw [show keyword lineWords (ascii "interface") = some .interface by decide]
    simp only [if_neg hfin, hp]
  have ky : ∀ (r : Bytes), Stop r → parseKey r = .error .bad →
      (parseLine L false s (g ++ (ascii "key" ++ r))).2 = .error .bad := by
    intro r hr hp
    have hw : Word (ascii "key") := word_kw _ (by decide)
    obtain ⟨e1, e2, e3⟩ := start _ _ hw hr
    rw [e1]
    unfold parseLine
    simp only [e2, Bool.false_eq_true, if_false, e3]
    rw [show keyword lineWords (ascii "key") = some .key by decide]
    simp only [if_neg hfin, hp]
  cases h with
  | option h =>
    cases h with
    | unknown hw hn hr =>
      refine opt _ _ hw hr.stop (keyword_none ?_) fun o => .inl ?_
      · intro p hp
        refine hn _ ?_
        have : ∀ p ∈ lineWords, p.1 ∈ (optionArgs L).map (·.1) ++ firstWords := by
          simp only [optionArgs, List.map_cons, List.map_nil]
          decide +kernel
        exact this p hp
      · intro f hf
        rw [keyword_none] at hf
        · simp at hf
        · intro p hp
          refine hn _ ?_
          have : ∀ p ∈ optionWords, p.1 ∈ (optionArgs L).map (·.1) ++ firstWords := by
            simp only [optionArgs, List.map_cons, List.map_nil]
            decide +kernel
          exact this p hp
    | missing hkw hr =>
      obtain ⟨k, h1, h2, h3⟩ := option_missing L _ hkw
      exact opt _ _ ((args_words L known).2.2.2 _ hkw) hr.over.2.2 h2 fun o => .inr ⟨k, h1, .inl (h3 _ hr o)⟩
    | value hm hg' hw hr =>
      obtain ⟨-, -, h2, -⟩ := option_missing L _ (mem_fst hm)
      obtain ⟨k, h1, h3⟩ := option_value hm hg' hw hr.stop
      exact opt _ _ ((args_words L known).2.2.2 _ (mem_fst hm)) (hg'.stop _) h2 fun o => .inr ⟨k, h1, .inl (h3 o)⟩
  | @optionString kw g' q hkw hg' hq =>
    have hin : ∀ kw ∈ stringOptions, kw ∈ (optionArgs L).map (·.1) := by
      simp only [optionArgs, List.map_cons, List.map_nil]
      decide +kernel
    obtain ⟨-, -, h2, -⟩ := option_missing L _ (hin _ hkw)
    refine opt _ _ ((args_words L known).2.2.2 _ (hin _ hkw)) (hg'.stop _) h2 fun o => .inr ?_
    simp only [stringOptions, List.mem_cons, List.not_mem_nil, or_false] at hkw
    rcases hkw with rfl | rfl | rfl | rfl | rfl
    · exact ⟨.stateFile, by decide +kernel, .inl (by simp only [optionValue, getstring_bad hg'.2 hq]; rfl)⟩
    · exact ⟨.logFile, by decide +kernel, .inl (by simp only [optionValue, getstring_bad hg'.2 hq]; rfl)⟩
    · exact ⟨.pidFile, by decide +kernel, .inl (by simp only [optionValue, getstring_bad hg'.2 hq]; rfl)⟩
    · exact ⟨.localPath, by decide +kernel, .inl (by simp only [optionValue, getstring_bad hg'.2 hq]; rfl)⟩
    · exact ⟨.localPathRw, by decide +kernel, .inl (by simp only [optionValue, getstring_bad hg'.2 hq]; rfl)⟩
  | @optionMore f t g' w r ht hg' hw hr =>
    obtain ⟨kw, k, body, rfl, hkw, hk1, hk2, hb⟩ := option_text hL ht
    have hw' : Word (ascii kw) := word_kw _ (by simp only [List.mem_append]; simp_all)
    obtain ⟨hs1, hs2⟩ := hb (g' ++ (w ++ r)) (hg'.stop _)
    rw [List.append_assoc]
    exact opt _ _ hw' hs1 hk2 fun o => .inr ⟨k, hk1, .inr ⟨_, _, hs2 o, skipEol_bad hg'.2 hw⟩⟩
  | @command kw r hkw hr =>
    have hw : ∀ kw ∈ commands, Word (ascii kw) := by unfold Word BlankC; decide +kernel
    obtain ⟨e1, e2, e3⟩ := start _ _ (hw _ hkw) hr.stop
    have act : ∀ a, actionLine false a r = .error .bad := by
      intro a
      unfold actionLine
      rcases skipEol_cases r with e | ⟨u, e, -⟩
      · rw [e]
      · rw [e]; rfl
    rw [e1]
    unfold parseLine
    simp only [e2, Bool.false_eq_true, if_false, e3]
    simp only [commands, List.mem_cons, List.not_mem_nil, or_false] at hkw
    rcases hkw with rfl | rfl | rfl | rfl | rfl
    · rw [show keyword lineWords (ascii "quit") = some .quit by decide]; exact act _
    · rw [show keyword lineWords (ascii "dump") = some .dump by decide]; exact act _
    · rw [show keyword lineWords (ascii "monitor") = some .monitor by decide]; exact act _
    · rw [show keyword lineWords (ascii "unmonitor") = some .unmonitor by decide]; exact act _
    · rw [show keyword lineWords (ascii "reopen-logfile") = some .reopen by decide]
      simp only [if_neg hfin]
      exact act _
  | @filter c r t g' o hc hg' ho =>
    refine fil c _ (clauses_stop hc (hg'.stop _)) ?_
    unfold parseFilter
    rw [filterLoop_then hL hc (hg'.stop _) (fun fuel f => filterLoop_offence hL ho hg'.2 fuel f) _ _ (by simp; omega)]
    rfl
  | @filterString c r t g' h' q hc hg' hh hq =>
    refine fil c _ (clauses_stop hc (hg'.stop _)) ?_
    unfold parseFilter
    rw [filterLoop_then hL hc (hg'.stop _) (fun fuel f => filterLoop_string hq hg'.2 hh fuel f) _ _ (by simp; omega)]
    rfl
  | @families c r t e u hc ha he => exact fil c _ (hc.stop he) (parseFilter_bad hL hc he ha)
  | @interface name l h' w t g' o hh hw hc hkn hg' ho =>
    refine inf _ (hh.stop _) ?_
    have hst := clauses_stop hc (hg'.stop o)
    have hgs := getstring_text h' w name _ hh.2 hw hst
    have hloop := ifLoop_then (keys := s.keys) hc (fun id hid => (hk id).1 (hkn id hid)) (hg'.stop o)
      (fun fuel b i => ifLoop_offence (fun id => (hk id).2) ho hg'.2 fuel b i)
      ((t ++ (g' ++ o)).length + 1) false { name := name } (by simp; omega)
    have hgs2 : getstring (skipWs (h' ++ (w ++ (t ++ (g' ++ o))))) = .ok (name, t ++ (g' ++ o)) := by
      rw [← hgs]
      unfold getstring
      simp only [skipWs_idem]
    unfold parseIfconf
    simp only
    split
    · rfl
    · rw [bind_ok hgs2]
      exact hloop
  | @interfaceName r hr =>
    refine inf _ hr.over.2.2 ?_
    unfold parseIfconf
    simp only
    split
    · rfl
    · have : getstring (skipWs r) = .error .bad := by
        unfold getstring
        simp only [skipWs_idem, hr.over.1, if_true]
      rw [this]
      rfl
  | @interfaceString h' q hh hq =>
    refine inf _ (hh.stop _) ?_
    unfold parseIfconf
    simp only
    split
    · rfl
    · have : getstring (skipWs (h' ++ q)) = .error .bad := by
        rw [← getstring_bad hh.2 hq]
        unfold getstring
        simp only [skipWs_idem]
      rw [this]
      rfl
  | @default l t g' o hc hkn hg' ho =>
    have hw : Word (ascii "default") := word_kw _ (by decide)
    obtain ⟨e1, e2, e3⟩ := start _ _ hw (clauses_stop hc (hg'.stop o))
    have hloop := ifLoop_then (keys := s.keys) hc (fun id hid => (hk id).1 (hkn id hid)) (hg'.stop o)
      (fun fuel b i => ifLoop_offence (fun id => (hk id).2) ho hg'.2 fuel b i)
      ((t ++ (g' ++ o)).length + 1) false {} (by simp; omega)
    rw [e1]
    unfold parseLine
    simp only [e2, Bool.false_eq_true, if_false, e3]
    rw [show keyword lineWords (ascii "default") = some .default by decide]
    simp only [if_neg hfin, hloop]
  | @key l t g' o hc hg' ho =>
    refine ky _ (clauses_stop hc (hg'.stop _)) ?_
    unfold parseKey
    rw [keyLoop_then hc (hg'.stop _) (fun fuel k => keyLoop_offence ho hg'.2 fuel k) _ _ (by simp; omega)]
    rfl
  | @keyShape l t e u hc hd he =>
    refine ky _ (hc.stop he) ?_
    rw [parseKey_text hc he, hd]

theorem badFile_ne {L : Libc} {known : Bytes → Prop} {t : Bytes} (h : BadFile L known t) : t ≠ [] := by
  cases h with
  | later h1 h2 h3 h4 h5 =>
    intro e
    apply h4
    have := congrArg List.length e
    simp only [List.length_append, List.length_nil] at this
    exact List.length_eq_zero_iff.1 (by simp only [List.length_append]; omega)
  | here hg h =>
    intro e
    obtain ⟨-, e⟩ := List.append_eq_nil_iff.1 e
    subst e
    generalize hn : ([] : Bytes) = n at h
    have hw : ∀ {w r : Bytes}, [] = w ++ r → w ≠ [] → False := by
      intro w r h hw
      have := (List.append_eq_nil_iff.1 h.symm).1
      exact hw this
    have ha : ∀ kw : String, kw ≠ "" → ascii kw ≠ [] := by
      intro kw h e
      unfold ascii at e
      apply h
      have : kw.toList = [] := by simpa using e
      exact String.toList_eq_nil_iff.1 this
    cases h with
    | option h =>
      cases h with
      | unknown h1 _ _ => exact hw hn h1.1
      | missing h1 _ => exact hw hn ((args_words L known).2.2.2 _ h1).1
      | value h1 _ _ _ => exact hw hn ((args_words L known).2.2.2 _ (mem_fst h1)).1
    | optionString h1 =>
      refine hw hn (ha _ ?_)
      rintro rfl; revert h1; decide
    | optionMore h1 h2 =>
      refine hw (w := _) (r := _) hn ?_
      intro e
      have := List.append_eq_nil_iff.1 hn.symm
      have := (List.append_eq_nil_iff.1 this.2).1
      exact h2.1 this
    | command h1 =>
      refine hw hn (ha _ ?_)
      rintro rfl; revert h1; decide
    | @filter c => exact hw hn (ha _ (by cases c <;> decide))
    | @filterString c => exact hw hn (ha _ (by cases c <;> decide))
    | @families c => exact hw hn (ha _ (by cases c <;> decide))
    | interface => exact hw hn (ha _ (by decide))
    | interfaceName => exact hw hn (ha _ (by decide))
    | interfaceString => exact hw hn (ha _ (by decide))
    | default => exact hw hn (ha _ (by decide))
    | key => exact hw hn (ha _ (by decide))
    | keyShape => exact hw hn (ha _ (by decide))

theorem fileLoop_bad {L : Libc} (hL : LibcOk L) {known : Bytes → Prop} {t : Bytes}
    (h : BadFile L known t) (fuel : Nat) (s : Conf) (hs : s.final = false)
    (hk : ∀ id, known id ↔ s.keys.any (·.id == id) = true) (hf : t.length < fuel) :
    (fileLoop L fuel s t).2 = .error .bad := by
  induction h generalizing fuel s with
  | @here known g o hg h =>
    rcases fuel with _ | fuel
    · simp at hf
    · have := parseLine_bad hL hs hk hg h
      unfold fileLoop
      rcases hx : parseLine L false s (g ++ o) with ⟨s', x⟩
      rw [hx] at this
      simp only at this
      subst this
      rfl
  | @later known x t e u h1 h2 h3 h4 h5 ih =>
    rcases fuel with _ | fuel
    · simp at hf
    · unfold fileLoop
      rw [parseLine_text hL hs h1 h2 (fun id => (hk id).1) h3]
      simp only
      rw [if_neg (by simpa using badFile_ne h5)]
      refine ih fuel _ (applyLine_final hs).1 ?_ ?_
      · intro id
        rw [applyLine_keys]
        constructor
        · rintro (hid | ⟨l, k, rfl, hk2, rfl⟩)
          · split
            · split
              · exact any_addKey.2 (.inl ((hk id).1 hid))
              · exact (hk id).1 hid
            · exact (hk id).1 hid
          · simp only [hk2]
            exact any_addKey.2 (.inr rfl)
        · intro hany
          split at hany
          · rename_i l
            split at hany
            · rename_i k hkd
              rcases any_addKey.1 hany with h | h
              · exact .inl ((hk id).2 h)
              · exact .inr ⟨l, k, rfl, hkd, h⟩
            · exact .inl ((hk id).2 hany)
          · exact .inl ((hk id).2 hany)
      · have : t ++ e ≠ [] := h4
        have hpos : 0 < (t ++ e).length := List.length_pos_iff.2 this
        simp only [List.length_append] at hf hpos
        omega

end Babel
