import Verif.Lemmas.Reject2
/-
Lines that are refused.
-/
set_option linter.unusedSimpArgs false
set_option linter.unusedVariables false
namespace Babel
open Spec

theorem stop_gap {g : Bytes} (h : Gap g) (r : Bytes) : Stop (g ++ r) := h.stop r

/-! ### Filters -/

theorem filter_missing (L : Libc) : ∀ kw ∈ (filterArgs L).map (·.1), ∃ k, keyword filterWords (ascii kw) = some k ∧
    ∀ r, LineOver r → ∀ f, filterClause L f k r = .error .bad := by
  intro kw hkw
  have hk : ∀ kw ∈ (filterArgs L).map (·.1), (keyword filterWords (ascii kw)).any
      (fun k => k ≠ .locl ∧ k ≠ .allow ∧ k ≠ .deny) = true := by
    simp only [filterArgs, List.map_cons, List.map_nil]
    decide +kernel
  have hk := hk kw hkw
  rcases e : keyword filterWords (ascii kw) with _ | k
  · rw [e] at hk; simp at hk
  · rw [e] at hk
    refine ⟨k, rfl, fun r hr f => ?_⟩
    cases k <;> first
      | (simp at hk; done)
      | (simp only [filterClause, getnet, getint, getip, getid, getword_over hr, getstring_over hr]; rfl)

theorem filter_value {L : Libc} (hL : LibcOk L) {kw : String} {B : Bytes → Prop} (h : (kw, B) ∈ filterArgs L)
    {g w r : Bytes} (hg : Gap g) (hw : B w) (hr : Stop r) : ∃ k, keyword filterWords (ascii kw) = some k ∧
    ∀ f, filterClause L f k (g ++ (w ++ r)) = .error .bad := by
  simp only [filterArgs, List.mem_cons, Prod.mk.injEq, List.not_mem_nil, or_false] at h
  rcases h with ⟨rfl, rfl⟩ | ⟨rfl, rfl⟩ | ⟨rfl, rfl⟩ | ⟨rfl, rfl⟩ | ⟨rfl, rfl⟩ | ⟨rfl, rfl⟩ | ⟨rfl, rfl⟩ | ⟨rfl, rfl⟩ |
    ⟨rfl, rfl⟩ | ⟨rfl, rfl⟩ | ⟨rfl, rfl⟩ | ⟨rfl, rfl⟩ | ⟨rfl, rfl⟩ | ⟨rfl, rfl⟩ | ⟨rfl, rfl⟩ | ⟨rfl, rfl⟩
  · exact ⟨.ip, by decide +kernel, fun f => by simp only [filterClause, getnet_bad hL hg.2 hw hr]; rfl⟩
  · exact ⟨.srcIp, by decide +kernel, fun f => by simp only [filterClause, getnet_bad hL hg.2 hw hr]; rfl⟩
  · exact ⟨.srcPrefix, by decide +kernel, fun f => by simp only [filterClause, getnet_bad hL hg.2 hw hr]; rfl⟩
  · exact ⟨.eq, by decide +kernel, fun f => by simp only [filterClause, getint_none hg.2 hw hr]; rfl⟩
  · exact ⟨.le, by decide +kernel, fun f => by simp only [filterClause, getint_none hg.2 hw hr]; rfl⟩
  · exact ⟨.ge, by decide +kernel, fun f => by simp only [filterClause, getint_none hg.2 hw hr]; rfl⟩
  · exact ⟨.srcEq, by decide +kernel, fun f => by simp only [filterClause, getint_none hg.2 hw hr]; rfl⟩
  · exact ⟨.srcLe, by decide +kernel, fun f => by simp only [filterClause, getint_none hg.2 hw hr]; rfl⟩
  · exact ⟨.srcGe, by decide +kernel, fun f => by simp only [filterClause, getint_none hg.2 hw hr]; rfl⟩
  · exact ⟨.proto, by decide +kernel, fun f => by simp only [filterClause, getint_none hg.2 hw hr]; rfl⟩
  · refine ⟨.metric, by decide +kernel, fun f => ?_⟩
    simp only [filterClause]
    rcases getint_bad hg.2 hw hr with e | ⟨v, e, hv1, hv2⟩
    · rw [e]; rfl
    · rw [bind_ok e]
      simp only
      rw [if_pos (by unfold INFINITY; omega)]
      rfl
  · refine ⟨.table, by decide +kernel, fun f => ?_⟩
    simp only [filterClause]
    rcases getint_bad hg.2 hw hr with e | ⟨v, e, hv1, hv2⟩
    · rw [e]; rfl
    · rw [bind_ok e]
      simp only
      rw [if_pos (by unfold INFINITY; omega)]
      rfl
  · exact ⟨.neigh, by decide +kernel, fun f => by simp only [filterClause, getip_bad hg.2 hw hr]; rfl⟩
  · exact ⟨.prefSrc, by decide +kernel, fun f => by simp only [filterClause, getip_bad hg.2 hw hr]; rfl⟩
  · exact ⟨.id, by decide +kernel, fun f => by simp only [filterClause, getid_bad hg.2 hw hr]; rfl⟩
  · exact hw.elim

theorem args_words (L : Libc) (known : Bytes → Prop) :
    (∀ kw ∈ (filterArgs L).map (·.1), Word (ascii kw)) ∧ (∀ kw ∈ (interfaceArgs known).map (·.1), Word (ascii kw)) ∧
    (∀ kw ∈ keyArgs.map (·.1), Word (ascii kw)) ∧ (∀ kw ∈ (optionArgs L).map (·.1), Word (ascii kw)) := by
  refine ⟨?_, ?_, ?_, ?_⟩ <;>
    simp only [filterArgs, interfaceArgs, keyArgs, optionArgs, List.map_cons, List.map_nil] <;>
    unfold Word BlankC <;> decide +kernel

theorem mem_fst {α β : Type} {a : α} {b : β} {l : List (α × β)} (h : (a, b) ∈ l) : a ∈ l.map (·.1) :=
  List.mem_map.2 ⟨_, h, rfl⟩

theorem filterLoop_offence {L : Libc} (hL : LibcOk L) {o : Bytes}
    (h : Offence (filterArgs L) ["local", "allow", "deny"] o) {g : Bytes} (hg : ∀ c ∈ g, BlankC c) (fuel : Nat) (f : Filter) :
    filterLoop L (fuel + 1) f (g ++ o) = .error .bad := by
  have start : ∀ (w r : Bytes), Word w → Stop r →
      (keyword filterWords w = none ∨ ∃ k, keyword filterWords w = some k ∧ ∀ f, filterClause L f k r = .error .bad) →
      filterLoop L (fuel + 1) f (g ++ (w ++ r)) = .error .bad := by
    intro w r hw hr hk
    unfold filterLoop
    simp only [skipWs_lexeme g _ _ hg hw]
    rw [if_neg (by rw [atEol_word _ hw]; simp), bind_ok (getword_word _ _ hw hr)]
    rcases hk with hk | ⟨k, hk, hb⟩
    · simp only [hk]; rfl
    · simp only [hk, hb]; rfl
  have hwords := (args_words L (fun _ => True)).1
  cases h with
  | unknown hw hn hr =>
    refine start _ _ hw hr.stop (.inl (keyword_none ?_))
    intro p hp
    refine hn _ ?_
    have : ∀ p ∈ filterWords, p.1 ∈ (filterArgs L).map (·.1) ++ ["local", "allow", "deny"] := by
      simp only [filterArgs, List.map_cons, List.map_nil]
      decide +kernel
    exact this p hp
  | missing hkw hr =>
    obtain ⟨k, hk, hb⟩ := filter_missing L _ hkw
    exact start _ _ (hwords _ hkw) hr.over.2.2 (.inr ⟨k, hk, hb _ hr⟩)
  | value hm hg hw hr =>
    obtain ⟨k, hk, hb⟩ := filter_value hL hm hg hw hr.stop
    exact start _ _ (hwords _ (mem_fst hm)) (hg.stop _) (.inr ⟨k, hk, hb⟩)

theorem filterLoop_string {L : Libc} {q : Bytes} (h : BadString q) {g h' : Bytes} (hg : ∀ c ∈ g, BlankC c) (hh : Gap h')
    (fuel : Nat) (f : Filter) : filterLoop L (fuel + 1) f (g ++ (ascii "if" ++ (h' ++ q))) = .error .bad := by
  have hw : Word (ascii "if") := by unfold Word BlankC; decide +kernel
  unfold filterLoop
  simp only [skipWs_lexeme g _ _ hg hw]
  rw [if_neg (by rw [atEol_word _ hw]; simp), bind_ok (getword_word _ _ hw (hh.stop _))]
  have : keyword filterWords (ascii "if") = some .ifname := by decide +kernel
  simp only [this, filterClause, getstring_bad hh.2 h]
  rfl

theorem step_bad {L : Libc} {f : Filter} {c : FClause} {e : Fail} (h : FClause.step L f c = .error e) : e = .bad := by
  unfold FClause.step Filter.setAf at h
  split at h
  · simp at h
  · split at h
    · simp at h
    · split at h
      · simp at h
      · simpa using h.symm

theorem filterLoop_then {L : Libc} (hL : LibcOk L) {l : List FClause} {t o : Bytes} (h : Clauses (FText L) l t)
    (ho : Stop o) (hbad : ∀ fuel f, filterLoop L (fuel + 1) f o = .error .bad)
    (fuel : Nat) (f : Filter) (hf : t.length < fuel) : filterLoop L fuel f (t ++ o) = .error .bad := by
  induction h generalizing fuel f with
  | nil =>
    rcases fuel with _ | fuel
    · simp at hf
    · exact hbad fuel f
  | @cons x xs g t u hg ht hu ih =>
    rcases fuel with _ | fuel
    · simp at hf
    · obtain ⟨kw, k, body, rfl, hkw, hk, hb⟩ := filterClause_text hL ht
      have hword := word_kw kw (by simp only [List.mem_append]; simp_all)
      have hst : Stop (u ++ o) := by
        cases hu with
        | nil => exact ho
        | cons hg h1 h2 => rw [List.append_assoc]; exact hg.stop _
      obtain ⟨hs1, hs2⟩ := hb (u ++ o) hst
      have e1 : g ++ (ascii kw ++ body ++ u) ++ o = g ++ (ascii kw ++ (body ++ (u ++ o))) := by
        simp only [List.append_assoc]
      have hl : u.length < fuel := by
        have := hg.1
        simp only [List.length_append] at hf
        rcases g with _ | ⟨c, g⟩
        · exact absurd rfl this
        · simp only [List.length_cons] at hf; omega
      unfold filterLoop
      rw [e1]
      simp only [skipWs_lexeme g _ _ hg.2 hword]
      rw [if_neg (by rw [atEol_word _ hword]; simp), bind_ok (getword_word _ _ hword hs1)]
      simp only [hk]
      rw [hs2]
      rcases hx : FClause.step L f x with e | f'
      · rw [step_bad hx]; rfl
      · exact ih fuel f' hl

/-! ### Interfaces -/

theorem if_missing (known : Bytes → Prop) (keys : List KeyDef) : ∀ kw ∈ (interfaceArgs known).map (·.1),
    ∃ k, keyword ifWords (ascii kw) = some k ∧ ∀ r, LineOver r → ∀ i, ifClause keys i k r = .error .bad := by
  intro kw hkw
  have hk : ∀ kw ∈ (interfaceArgs known).map (·.1), (keyword ifWords (ascii kw)).isSome = true := by
    simp only [interfaceArgs, List.map_cons, List.map_nil]
    decide +kernel
  have hk := hk kw hkw
  rcases e : keyword ifWords (ascii kw) with _ | k
  · rw [e] at hk; simp at hk
  · refine ⟨k, rfl, fun r hr f => ?_⟩
    cases k <;> simp only [ifClause, getint, getthousands, getbool, getIfType, getword_over hr] <;> rfl

theorem if_value {known : Bytes → Prop} {keys : List KeyDef} (hk : ∀ id, keys.any (·.id == id) = true → known id)
    {kw : String} {B : Bytes → Prop} (h : (kw, B) ∈ interfaceArgs known)
    {g w r : Bytes} (hg : Gap g) (hw : B w) (hr : Stop r) : ∃ k, keyword ifWords (ascii kw) = some k ∧
    ∀ i, ifClause keys i k (g ++ (w ++ r)) = .error .bad := by
  simp only [interfaceArgs, List.mem_cons, Prod.mk.injEq, List.not_mem_nil, or_false] at h
  rcases h with ⟨rfl, rfl⟩ | ⟨rfl, rfl⟩ | ⟨rfl, rfl⟩ | ⟨rfl, rfl⟩ | ⟨rfl, rfl⟩ | ⟨rfl, rfl⟩ | ⟨rfl, rfl⟩ | ⟨rfl, rfl⟩ |
    ⟨rfl, rfl⟩ | ⟨rfl, rfl⟩ | ⟨rfl, rfl⟩ | ⟨rfl, rfl⟩ | ⟨rfl, rfl⟩ | ⟨rfl, rfl⟩ | ⟨rfl, rfl⟩ | ⟨rfl, rfl⟩ | ⟨rfl, rfl⟩ |
    ⟨rfl, rfl⟩ | ⟨rfl, rfl⟩
  · refine ⟨.rxcost, by decide +kernel, fun f => ?_⟩
    simp only [ifClause]
    rcases getint_bad hg.2 hw hr with e | ⟨v, e, hv1, hv2⟩
    · rw [e]; rfl
    · rw [bind_ok e]
      simp only
      rw [if_pos (by omega)]
      rfl
  · refine ⟨.rttDecay, by decide +kernel, fun f => ?_⟩
    simp only [ifClause]
    rcases getint_bad hg.2 hw hr with e | ⟨v, e, hv1, hv2⟩
    · rw [e]; rfl
    · rw [bind_ok e]
      simp only
      rw [if_pos (by omega)]
      rfl
  · refine ⟨.maxRttPenalty, by decide +kernel, fun f => ?_⟩
    simp only [ifClause]
    rcases getint_bad hg.2 hw hr with e | ⟨v, e, hv1, hv2⟩
    · rw [e]; rfl
    · rw [bind_ok e]
      simp only
      rw [if_pos (by omega)]
      rfl
  · refine ⟨.helloInterval, by decide +kernel, fun f => ?_⟩
    simp only [ifClause]
    rcases getthousands_bad hg.2 hw hr with e | ⟨v, e, hv1, hv2⟩
    · rw [e]; rfl
    · rw [bind_ok e]
      simp only
      rw [if_pos (by omega)]
      rfl
  · refine ⟨.updateInterval, by decide +kernel, fun f => ?_⟩
    simp only [ifClause]
    rcases getthousands_bad hg.2 hw hr with e | ⟨v, e, hv1, hv2⟩
    · rw [e]; rfl
    · rw [bind_ok e]
      simp only
      rw [if_pos (by omega)]
      rfl
  · refine ⟨.rttMin, by decide +kernel, fun f => ?_⟩
    simp only [ifClause]
    rcases getthousands_bad hg.2 hw hr with e | ⟨v, e, hv1, hv2⟩
    · rw [e]; rfl
    · rw [bind_ok e]
      simp only
      rw [if_pos (by omega)]
      rfl
  · refine ⟨.rttMax, by decide +kernel, fun f => ?_⟩
    simp only [ifClause]
    rcases getthousands_bad hg.2 hw hr with e | ⟨v, e, hv1, hv2⟩
    · rw [e]; rfl
    · rw [bind_ok e]
      simp only
      rw [if_pos (by omega)]
      rfl
  · exact ⟨.type, by decide +kernel, fun f => by simp only [ifClause, getIfType_bad hg.2 hw hr]; rfl⟩
  · exact ⟨.wired, by decide +kernel, fun f => by simp only [ifClause, getbool_bad hg.2 hw hr]; rfl⟩
  · exact ⟨.splitHorizon, by decide +kernel, fun f => by simp only [ifClause, getbool_bad hg.2 hw hr]; rfl⟩
  · exact ⟨.lq, by decide +kernel, fun f => by simp only [ifClause, getbool_bad hg.2 hw hr]; rfl⟩
  · exact ⟨.faraway, by decide +kernel, fun f => by simp only [ifClause, getbool_bad hg.2 hw hr]; rfl⟩
  · exact ⟨.unicast, by decide +kernel, fun f => by simp only [ifClause, getbool_bad hg.2 hw hr]; rfl⟩
  · exact ⟨.timestamps, by decide +kernel, fun f => by simp only [ifClause, getbool_bad hg.2 hw hr]; rfl⟩
  · exact ⟨.rfc6126, by decide +kernel, fun f => by simp only [ifClause, getbool_bad hg.2 hw hr]; rfl⟩
  · exact ⟨.acceptBad, by decide +kernel, fun f => by simp only [ifClause, getbool_bad hg.2 hw hr]; rfl⟩
  · exact ⟨.v4viav6, by decide +kernel, fun f => by simp only [ifClause, getbool_bad hg.2 hw hr]; rfl⟩
  · exact ⟨.probeMtu, by decide +kernel, fun f => by simp only [ifClause, getbool_bad hg.2 hw hr]; rfl⟩
  · refine ⟨.key, by decide +kernel, fun f => ?_⟩
    simp only [ifClause]
    rw [getword_text g w r hg.2 hw.1 hr]
    show (if keys.any (·.id == w) = true then _ else Except.error Fail.bad) = _
    rw [if_neg (fun h => hw.2 (hk w h))]

theorem ifLoop_offence {known : Bytes → Prop} {keys : List KeyDef} (hk : ∀ id, keys.any (·.id == id) = true → known id)
    {o : Bytes} (h : Offence (interfaceArgs known) [] o) {g : Bytes} (hg : ∀ c ∈ g, BlankC c) (fuel : Nat) (b : Bool)
    (i : IfConf) : ifLoop keys (fuel + 1) b i (g ++ o) = .error .bad := by
  have start : ∀ (w r : Bytes), Word w → Stop r →
      (keyword ifWords w = none ∨ ∃ k, keyword ifWords w = some k ∧ ∀ i, ifClause keys i k r = .error .bad) →
      ifLoop keys (fuel + 1) b i (g ++ (w ++ r)) = .error .bad := by
    intro w r hw hr hk
    unfold ifLoop
    simp only [skipWs_lexeme g _ _ hg hw]
    rw [if_neg (by rw [atEol_word _ hw]; simp), getword_word _ _ hw hr]
    rcases hk with hk | ⟨k, hk, hb⟩
    · simp only [hk]
    · simp only [hk, hb]; rfl
  have hwords := (args_words ⟨fun _ => none, fun _ => none, fun _ => none, fun _ => 0⟩ known).2.1
  cases h with
  | unknown hw hn hr =>
    refine start _ _ hw hr.stop (.inl (keyword_none ?_))
    intro p hp
    refine hn _ ?_
    have : ∀ p ∈ ifWords, p.1 ∈ (interfaceArgs known).map (·.1) ++ [] := by
      simp only [interfaceArgs, List.map_cons, List.map_nil]
      decide +kernel
    exact this p hp
  | missing hkw hr =>
    obtain ⟨k, hk, hb⟩ := if_missing known keys _ hkw
    exact start _ _ (hwords _ hkw) hr.over.2.2 (.inr ⟨k, hk, hb _ hr⟩)
  | value hm hg hw hr =>
    obtain ⟨k, hk, hb⟩ := if_value hk hm hg hw hr.stop
    exact start _ _ (hwords _ (mem_fst hm)) (hg.stop _) (.inr ⟨k, hk, hb⟩)

theorem ifLoop_then {keys : List KeyDef} {l : List IClause} {t o : Bytes} (h : Clauses IText l t)
    (hk : ∀ id, .key id ∈ l → keys.any (·.id == id) = true)
    (ho : Stop o) (hbad : ∀ fuel b i, ifLoop keys (fuel + 1) b i o = .error .bad)
    (fuel : Nat) (b : Bool) (i : IfConf) (hf : t.length < fuel) : ifLoop keys fuel b i (t ++ o) = .error .bad := by
  induction h generalizing fuel b i with
  | nil =>
    rcases fuel with _ | fuel
    · simp at hf
    · exact hbad fuel b i
  | @cons x xs g t u hg ht hu ih =>
    rcases fuel with _ | fuel
    · simp at hf
    · obtain ⟨kw, k, body, rfl, hkw, hkk, hb⟩ := ifClause_text (keys := keys) ht
        (fun id hid => hk id (by subst hid; simp))
      have hword := word_kw kw (by simp only [List.mem_append]; simp_all)
      have hst : Stop (u ++ o) := by
        cases hu with
        | nil => exact ho
        | cons hg h1 h2 => rw [List.append_assoc]; exact hg.stop _
      obtain ⟨hs1, hs2⟩ := hb (u ++ o) hst
      have e1 : g ++ (ascii kw ++ body ++ u) ++ o = g ++ (ascii kw ++ (body ++ (u ++ o))) := by
        simp only [List.append_assoc]
      have hl : u.length < fuel := by
        have := hg.1
        simp only [List.length_append] at hf
        rcases g with _ | ⟨c, g⟩
        · exact absurd rfl this
        · simp only [List.length_cons] at hf; omega
      unfold ifLoop
      rw [e1]
      simp only [skipWs_lexeme g _ _ hg.2 hword]
      rw [if_neg (by rw [atEol_word _ hword]; simp), getword_word _ _ hword hs1]
      simp only [hkk]
      rw [hs2]
      exact ih (fun id hid => hk id (by simp [hid])) fuel true _ hl

/-! ### Keys -/

theorem keyLoop_offence {o : Bytes} (h : Offence keyArgs [] o) {g : Bytes} (hg : ∀ c ∈ g, BlankC c) (fuel : Nat)
    (k : KeyAcc) : keyLoop (fuel + 1) k (g ++ o) = .error .bad := by
  have start : ∀ (w r : Bytes), Word w → Stop r → keyLoop (fuel + 1) k (g ++ (w ++ r)) =
      (match keyword keyWords w with
      | none => throw .bad
      | some .id => do
        let (id, r) ← getword r
        keyLoop fuel { k with id := some id } r
      | some .type => do
        let (t, r) ← getword r
        match keyword authWords t with
        | none => throw .bad
        | some t => keyLoop fuel { k with type := t } r
      | some .value => do
        let (v, r) ← gethex r
        keyLoop fuel { k with value := v } r) := by
    intro w r hw hr
    conv => lhs; unfold keyLoop
    simp only [skipWs_lexeme g _ _ hg hw]
    rw [if_neg (by rw [atEol_word _ hw]; simp), bind_ok (getword_word _ _ hw hr)]
    rcases hx : keyword keyWords w with _ | _ | _ | _ <;> rfl
  have hwords := (args_words ⟨fun _ => none, fun _ => none, fun _ => none, fun _ => 0⟩ (fun _ => True)).2.2.1
  have k1 : keyword keyWords (ascii "id") = some .id := by decide +kernel
  have k2 : keyword keyWords (ascii "type") = some .type := by decide +kernel
  have k3 : keyword keyWords (ascii "value") = some .value := by decide +kernel
  cases h with
  | unknown hw hn hr =>
    rw [start _ _ hw hr.stop, keyword_none]
    · rfl
    · intro p hp
      refine hn _ ?_
      have : ∀ p ∈ keyWords, p.1 ∈ keyArgs.map (·.1) ++ [] := by
        simp only [keyArgs, List.map_cons, List.map_nil]
        decide +kernel
      exact this p hp
  | missing hkw hr =>
    rw [start _ _ (hwords _ hkw) hr.over.2.2]
    simp only [keyArgs, List.map_cons, List.map_nil, List.mem_cons, List.not_mem_nil, or_false] at hkw
    rcases hkw with rfl | rfl | rfl
    · simp only [k1, getword_over hr]; rfl
    · simp only [k2, getword_over hr]; rfl
    · simp only [k3, gethex, getword_over hr]; rfl
  | value hm hg hw hr =>
    rw [start _ _ (hwords _ (mem_fst hm)) (hg.stop _)]
    simp only [keyArgs, List.mem_cons, Prod.mk.injEq, List.not_mem_nil, or_false] at hm
    rcases hm with ⟨rfl, rfl⟩ | ⟨rfl, rfl⟩ | ⟨rfl, rfl⟩
    · exact hw.elim
    · simp only [k2]
      rw [bind_ok (getword_text _ _ _ hg.2 hw.1 hr.stop)]
      have : keyword authWords _ = none := keyword_none (w := _) (l := authWords) (by
        intro p hp
        simp only [authWords, List.mem_cons, List.not_mem_nil, or_false] at hp
        rcases hp with rfl | rfl | rfl
        · exact hw.2.1
        · exact hw.2.2.1
        · exact hw.2.2.2)
      simp only [this]
      rfl
    · simp only [k3, gethex_bad hg.2 hw hr.stop]
      rfl

end Babel
