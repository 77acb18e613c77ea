import Verif.Lemmas.Config6
/-
The filters and the interfaces after start-up.
-/
set_option linter.unusedSimpArgs false
set_option linter.unusedVariables false
namespace Babel
open Spec

/-- What parsing ensures of a rule. -/
def RuleOk (r : List FClause) : Prop :=
  InRange r ∧ (∀ p n, lastOf FClause.dst? r = some (p, n) → p.length = 16 ∧ n ≤ 128) ∧
  (∀ p n, lastOf FClause.src? r = some (p, n) → p.length = 16 ∧ n ≤ 128)

theorem Spec.Clauses.mem {α : Type} {T : α → Bytes → Prop} {l : List α} {t : Bytes} (h : Clauses T l t) {x : α} (hx : x ∈ l) :
    ∃ u, T x u := by
  induction h with
  | nil => simp at hx
  | cons hg ht hc ih =>
    simp only [List.mem_cons] at hx
    rcases hx with rfl | hx
    · exact ⟨_, ht⟩
    · exact ih hx

theorem ruleOk_text {L : Libc} (hL : LibcOk L) {r : List FClause} {t : Bytes} (h : Clauses (FText L) r t) (hr : InRange r) :
    RuleOk r := by
  refine ⟨hr, fun p n hp => ?_, fun p n hp => ?_⟩
  · obtain ⟨c, hc, e⟩ := lastOf_mem hp
    obtain ⟨u, hu⟩ := h.mem hc
    cases hu with
    | ip hg hw hn =>
      simp only [FClause.dst?, Option.some.injEq, Prod.mk.injEq] at e
      obtain ⟨rfl, rfl⟩ := e
      exact hn.length hL
    | _ => simp [FClause.dst?] at e
  · obtain ⟨c, hc, e⟩ := lastOf_mem hp
    obtain ⟨u, hu⟩ := h.mem hc
    cases hu with
    | srcIp hg hw hn =>
      simp only [FClause.src?, Option.some.injEq, Prod.mk.injEq] at e
      obtain ⟨rfl, rfl⟩ := e
      exact hn.length hL
    | _ => simp [FClause.src?] at e

theorem Spec.FileText.rules {L : Libc} (hL : LibcOk L) {known : Bytes → Prop} {ls : List CLine} {t : Bytes}
    (h : FileText L known ls t) {c : Chain} {r : List FClause} (hr : .filter c r ∈ ls) : RuleOk r := by
  induction h with
  | nil => simp at hr
  | cons h1 h2 h3 h4 h5 ih =>
    simp only [List.mem_cons] at hr
    rcases hr with rfl | hr
    · cases h1 with
      | filter hg hc => exact ruleOk_text hL hc h3.2
    · exact ih hr

theorem Spec.FilesText.rules {L : Libc} (hL : LibcOk L) {known : Bytes → Prop} {ls : List CLine} {ts : List Bytes}
    (h : FilesText L known ls ts) {c : Chain} {r : List FClause} (hr : .filter c r ∈ ls) : RuleOk r := by
  induction h with
  | nil => simp at hr
  | cons h1 h2 ih =>
    simp only [List.mem_append] at hr
    rcases hr with hr | hr
    · exact h1.rules hL hr
    · exact ih hr

theorem ruleOk_filterMap {ls : List CLine} (h : ∀ c r, .filter c r ∈ ls → RuleOk r) (c : Chain) :
    ∀ r ∈ ls.filterMap (CLine.rule? c), RuleOk r := by
  intro r hr
  rw [List.mem_filterMap] at hr
  obtain ⟨x, hx, e⟩ := hr
  cases x with
  | filter d r' =>
    simp only [CLine.rule?] at e
    split at e
    · cases e; exact h _ _ hx
    · simp at e
  | _ => simp [CLine.rule?] at e

theorem doFilter_append (a b : List Filter) (q : FArgs) : doFilter (a ++ b) q = (doFilter a q).or (doFilter b q) := by
  induction a with
  | nil => simp [doFilter]
  | cons f a ih =>
    rw [List.cons_append]
    rw [doFilter, doFilter]
    split
    · rfl
    · exact ih

theorem doFilter_rules {L : Libc} (hL : LibcOk L) {rs : List (List FClause)} (h : ∀ r ∈ rs, RuleOk r) {q : FArgs} (hq : ArgsOk q) :
    Outcome L rs q (doFilter (rs.map (ruleFilter L)) q) := by
  induction rs with
  | nil => simp [doFilter, Outcome]
  | cons r rs ih =>
    obtain ⟨h1, h2, h3⟩ := h r (by simp)
    have hm := rule_matches (L := L) r hL h1 q hq h2 h3
    rw [List.map_cons]
    unfold doFilter
    split
    · rename_i hf
      exact ⟨[], r, rs, rfl, by simp, hm.1 hf, by rw [rule_action]⟩
    · rename_i hf
      have ih := ih (fun r' hr' => h r' (by simp [hr']))
      have hno : ¬ Matches L r q := fun hc => hf (hm.2 hc)
      generalize doFilter (rs.map (ruleFilter L)) q = a at ih
      cases a with
      | none =>
        simp only [Outcome] at ih ⊢
        intro r' hr'
        simp only [List.mem_cons] at hr'
        rcases hr' with rfl | hr'
        · exact hno
        · exact ih r' hr'
      | some a =>
        obtain ⟨b, x, c, rfl, g1, g2, g3⟩ := ih
        refine ⟨r :: b, x, c, rfl, ?_, g2, g3⟩
        intro r' hr'
        simp only [List.mem_cons] at hr'
        rcases hr' with rfl | hr'
        · exact hno
        · exact g1 r' hr'

theorem follow {L : Libc} (hL : LibcOk L) {ls : List CLine} (h : ∀ c r, .filter c r ∈ ls → RuleOk r) {s : Conf}
    (h1 : s.input = (ls.filterMap (CLine.rule? .inp)).map (ruleFilter L))
    (h2 : s.output = (ls.filterMap (CLine.rule? .out)).map (ruleFilter L))
    (h3 : s.redist = (ls.filterMap (CLine.rule? .redistribute)).map (ruleFilter L) ++ [{ proto := RTPROT_BABEL_LOCAL }])
    (h4 : s.install = (ls.filterMap (CLine.rule? .install)).map (ruleFilter L) ++ [({} : Filter)]) : FiltersFollow L ls s := by
  constructor
  · intro id dst plen src srcPlen neigh ifindex hq
    refine ⟨_, doFilter_rules hL (ruleOk_filterMap h .inp) hq, ?_⟩
    unfold inputFilter metricOf
    rw [h1]
    rfl
  · intro id dst plen src srcPlen ifindex hq
    refine ⟨_, doFilter_rules hL (ruleOk_filterMap h .out) hq, ?_⟩
    unfold outputFilter metricOf
    rw [h2]
    rfl
  · intro dst plen src srcPlen ifindex proto hq
    refine ⟨_, doFilter_rules hL (ruleOk_filterMap h .redistribute) hq, ?_⟩
    unfold redistributeFilter metricOf
    rw [h3, doFilter_append]
    have e : doFilter [({ proto := RTPROT_BABEL_LOCAL } : Filter)] ⟨none, dst, plen, src, srcPlen, none, ifindex, proto⟩
        = if proto = -2 then some {} else none := by
      unfold doFilter doFilter filterMatch
      simp only [RTPROT_BABEL_LOCAL]
      by_cases hp : proto = -2
      · subst hp; simp
      · rw [if_neg hp]
        by_cases h0 : proto = 0
        · subst h0; simp
        · have : ((-2 : Int) != proto) = true := by simpa using Ne.symm hp
          simp [this]
    rw [e]
    cases doFilter (List.map (ruleFilter L) (List.filterMap (CLine.rule? Chain.redistribute) ls)) ⟨none, dst, plen, src, srcPlen, none, ifindex, proto⟩ with
    | none =>
      by_cases hp : proto = -2
      · simp [hp]
      · simp [hp]
    | some a => simp
  · intro id dst plen src srcPlen ifindex hq
    refine ⟨_, doFilter_rules hL (ruleOk_filterMap h .install) hq, ?_⟩
    unfold installFilter metricOf
    rw [h4, doFilter_append]
    have e : doFilter [({} : Filter)] ⟨id, dst, plen, src, srcPlen, none, ifindex, 0⟩ = some {} := by
      unfold doFilter filterMatch
      simp [RTPROT_BABEL_LOCAL]
    rw [e]
    cases doFilter (List.map (ruleFilter L) (List.filterMap (CLine.rule? Chain.install) ls)) ⟨id, dst, plen, src, srcPlen, none, ifindex, 0⟩ <;> simp

theorem put_renumber (L : Libc) (ix : Bytes → Nat) (f : Filter) (c : FClause) :
    (FClause.put L f c).renumber { L with ifindex := ix } =
      FClause.put { L with ifindex := ix } (f.renumber { L with ifindex := ix }) c := by
  obtain ⟨af, ifname, ifindex⟩ := f
  cases ifname <;> cases c <;> rfl

theorem foldl_renumber (L : Libc) (ix : Bytes → Nat) (r : List FClause) (f : Filter) :
    (r.foldl (FClause.put L) f).renumber { L with ifindex := ix } =
      r.foldl (FClause.put { L with ifindex := ix }) (f.renumber { L with ifindex := ix }) := by
  induction r generalizing f with
  | nil => rfl
  | cons c r ih => rw [List.foldl_cons, List.foldl_cons, ih, put_renumber]

theorem finish_renumber (L : Libc) (f : Filter) : (finishFilter f).renumber L = finishFilter (f.renumber L) := by
  obtain ⟨af, ifname, ifindex, id, dst, ge, le, src, sge, sle, neigh, proto, action⟩ := f
  by_cases hc : le < 128 ∨ ge > 0 ∨ sle < 128 ∨ sge > 0
  · cases ifname <;> rcases af with _ | _ | _ <;> (first | rfl | simp [finishFilter, Filter.renumber, hc])
  · cases ifname <;> rcases af with _ | _ | _ <;> (first | rfl | simp [finishFilter, Filter.renumber, hc])

theorem rule_renumber (L : Libc) (ix : Bytes → Nat) (r : List FClause) :
    (ruleFilter L r).renumber { L with ifindex := ix } = ruleFilter { L with ifindex := ix } r := by
  unfold ruleFilter
  rw [finish_renumber]
  congr 1
  have := foldl_renumber L ix r {}
  have e : ∀ (f : Filter) a, ({ f with af := a } : Filter).renumber { L with ifindex := ix } =
      { f.renumber { L with ifindex := ix } with af := a } := by
    intro f a; obtain ⟨af, ifname, ifindex⟩ := f; cases ifname <;> rfl
  rw [e, this]
  rfl

theorem addNamed_frame (names : List Bytes) (s : Conf) :
    (addNamed s names).input = s.input ∧ (addNamed s names).output = s.output ∧ (addNamed s names).redist = s.redist ∧
    (addNamed s names).install = s.install ∧ (addNamed s names).defaults = s.defaults ∧ (addNamed s names).ifconfs = s.ifconfs ∧
    (addNamed s names).keys = s.keys ∧ (addNamed s names).opts = s.opts ∧ (addNamed s names).final = s.final := by
  unfold addNamed
  induction names generalizing s with
  | nil => exact ⟨rfl, rfl, rfl, rfl, rfl, rfl, rfl, rfl, rfl⟩
  | cons n names ih =>
    rw [List.foldl_cons]
    have := ih (addInterface s n (if s.defaults.isSome then .default else .none))
    have e : ∀ r, addInterface s n r = s ∨ addInterface s n r = { s with ifs := s.ifs ++ [(n, r)] } := by
      intro r; unfold addInterface; split <;> simp
    rcases e (if s.defaults.isSome then .default else .none) with e | e
    · rw [e] at this ⊢; exact this
    · rw [e] at this ⊢; exact this

theorem addNamed_find (names : List Bytes) (s : Conf) (m : Bytes) :
    (addNamed s names).ifs.find? (·.1 == m) =
      (s.ifs.find? (·.1 == m)).or (if m ∈ names then some (m, if s.defaults.isSome then .default else .none) else none) := by
  unfold addNamed
  induction names generalizing s with
  | nil => simp
  | cons n names ih =>
    rw [List.foldl_cons, ih, addInterface_ifConf]
    have hd : (addInterface s n (if s.defaults.isSome then .default else .none)).defaults = s.defaults := by
      unfold addInterface; split <;> rfl
    rw [hd]
    cases s.ifs.find? (·.1 == m) with
    | some x => simp
    | none =>
      by_cases hn : n = m
      · subst hn; simp
      · have : m ≠ n := Ne.symm hn
        simp [hn, this]

end Babel
