import Verif.Lemmas.Config8
/-
The configuration while the daemon runs.
-/
set_option linter.unusedSimpArgs false
set_option linter.unusedVariables false
namespace Babel
open Spec

theorem Fixed.refl (s : Conf) : Fixed s s := ⟨rfl, rfl, rfl, rfl, rfl, rfl⟩

theorem Fixed.trans {a b c : Conf} (h1 : Fixed a b) (h2 : Fixed b c) : Fixed a c := by
  obtain ⟨p1, p2, p3, p4, p5, p6⟩ := h1
  obtain ⟨q1, q2, q3, q4, q5, q6⟩ := h2
  refine ⟨q1.trans p1, q2.trans p2, q3.trans p3, q4.trans p4, q5.trans p5, ?_⟩
  rw [← p6, ← q6]

theorem option_fixed {L : Libc} {o : Opts} {w inp : Bytes} :
    { (parseOption L true o w inp).1 with linkDetect := o.linkDetect, logFile := o.logFile, halfLife := o.halfLife } = o := by
  unfold parseOption
  split
  · rfl
  · rename_i k _
    split
    · rfl
    · rename_i hk
      simp only [true_and, ne_eq, Classical.not_and_iff_not_or_not, Classical.not_not] at hk
      rcases hv : optionValue L o k inp with e | ⟨o', r⟩
      · rfl
      · simp only
        rcases hk with rfl | rfl | rfl
        · unfold optionValue at hv
          simp only at hv
          rcases hg : getyes inp with e | ⟨v, r'⟩
          · rw [hg] at hv; exact absurd hv (by simp [bind, Except.bind])
          · rw [hg] at hv
            simp only [bind, Except.bind, pure, Except.pure, Except.ok.injEq, Prod.mk.injEq] at hv
            rw [← hv.1]
        · unfold optionValue at hv
          simp only at hv
          rcases hg : getstring inp with e | ⟨v, r'⟩
          · rw [hg] at hv; exact absurd hv (by simp [bind, Except.bind])
          · rw [hg] at hv
            simp only [bind, Except.bind, pure, Except.pure, Except.ok.injEq, Prod.mk.injEq] at hv
            rw [← hv.1]
        · unfold optionValue at hv
          simp only at hv
          rcases hg : getint inp with e | ⟨v, r'⟩
          · rw [hg] at hv; exact absurd hv (by simp [bind, Except.bind])
          · rw [hg] at hv
            simp only [bind, Except.bind, pure, Except.pure] at hv
            split at hv
            · simp [throw, throwThe, MonadExceptOf.throw] at hv
            · simp only [Except.ok.injEq, Prod.mk.injEq] at hv
              rw [← hv.1]

theorem addInterface_fixed (s : Conf) (n : Bytes) (r : ConfRef) : Fixed s (addInterface s n r) := by
  unfold addInterface
  split
  · exact Fixed.refl s
  · exact ⟨rfl, rfl, rfl, rfl, rfl, rfl⟩

theorem parseLine_fixed (L : Libc) (b : Bool) (s : Conf) (inp : Bytes) (hs : s.final = true) :
    Fixed s (parseLine L b s inp).1 := by
  have hfil : ∀ (add : Conf → Filter → Conf) (r : Bytes), (filterLine L s add r).1 = s := by
    intro add r
    unfold filterLine
    rw [if_pos hs]
  unfold parseLine
  simp only
  split
  · exact Fixed.refl s
  · split
    · exact Fixed.refl s
    · split
      · exact Fixed.refl s
      · exact Fixed.refl s
      · exact Fixed.refl s
      · exact Fixed.refl s
      · split
        · exact Fixed.refl s
        · split
          · rw [hfil]; exact Fixed.refl s
          · rw [hfil]; exact Fixed.refl s
          · rw [hfil]; exact Fixed.refl s
          · rw [hfil]; exact Fixed.refl s
          · split
            · exact Fixed.refl s
            · simp only
              unfold addIfconf
              simp only [hs, if_true]
              refine Fixed.trans ?_ (addInterface_fixed _ _ _)
              exact ⟨rfl, rfl, rfl, rfl, hs.symm, rfl⟩
          · split
            · exact Fixed.refl s
            · exact ⟨rfl, rfl, rfl, rfl, rfl, rfl⟩
          · unfold flushLine
            split
            · exact Fixed.refl s
            · split
              · split
                · exact Fixed.refl s
                · split
                  · exact Fixed.refl s
                  · simp only
                    unfold flushInterface
                    split
                    · exact Fixed.refl s
                    · simp only
                      split <;> exact ⟨rfl, rfl, rfl, rfl, rfl, rfl⟩
              · exact Fixed.refl s
          · exact Fixed.refl s
          · split
            · exact Fixed.refl s
            · exact ⟨rfl, rfl, rfl, rfl, rfl, rfl⟩
          · refine ⟨rfl, rfl, rfl, rfl, rfl, ?_⟩
            simp only [hs]
            exact option_fixed

theorem parseString_fixed (L : Libc) (s : Conf) (inp : Bytes) (hs : s.final = true) :
    Fixed s (parseString L s inp).1 := by
  unfold parseString
  split
  · exact Fixed.refl s
  · have := parseLine_fixed L true s inp hs
    rcases hx : parseLine L true s inp with ⟨s', e | ⟨a, r⟩⟩
    · rw [hx] at this; exact this
    · rw [hx] at this; exact this

/-- Without write permission, nothing changes. -/
theorem parseLine_readonly (L : Libc) (b : Bool) (s : Conf) (inp : Bytes) (hs : s.final = true)
    (hw : s.opts.localWrite = false) : (parseLine L b s inp).1 = s := by
  unfold parseLine
  simp only
  split
  · rfl
  · split
    · rfl
    · split <;> try rfl
      rw [if_pos ⟨hs, by simp [hw]⟩]

theorem parseString_readonly (L : Libc) (s : Conf) (inp : Bytes) (hs : s.final = true)
    (hw : s.opts.localWrite = false) : (parseString L s inp).1 = s := by
  unfold parseString
  split
  · rfl
  · have := parseLine_readonly L true s inp hs hw
    rcases hx : parseLine L true s inp with ⟨s', e | ⟨a, r⟩⟩
    · rw [hx] at this; exact this
    · rw [hx] at this; exact this

theorem follow_step {L : Libc} (hL : LibcOk L) {ls : List CLine} (h : ∀ c r, .filter c r ∈ ls → RuleOk r) {s : Conf}
    (h1 : s.input = (ls.filterMap (CLine.rule? .inp)).map (ruleFilter L))
    (h2 : s.output = (ls.filterMap (CLine.rule? .out)).map (ruleFilter L))
    (h3 : s.redist = (ls.filterMap (CLine.rule? .redistribute)).map (ruleFilter L) ++ [{ proto := RTPROT_BABEL_LOCAL }])
    (h4 : s.install = (ls.filterMap (CLine.rule? .install)).map (ruleFilter L) ++ [({} : Filter)])
    (hs : s.final = true) (evs : List ConfEv) :
    FiltersFollow (evs.foldl confStep (L, s)).1 ls (evs.foldl confStep (L, s)).2 := by
  induction evs generalizing L s with
  | nil => exact follow hL h h1 h2 h3 h4
  | cons ev evs ih =>
    rw [List.foldl_cons]
    cases ev with
    | line t =>
      have f := parseString_fixed L s t hs
      exact ih hL (f.input.trans h1) (f.output.trans h2) (f.redist.trans h3) (f.install.trans h4) (f.final.trans hs)
    | renumber ix =>
      have hmap : ∀ rs : List (List FClause), (rs.map (ruleFilter L)).map (Filter.renumber { L with ifindex := ix }) =
          rs.map (ruleFilter { L with ifindex := ix }) := by
        intro rs
        rw [List.map_map]
        exact List.map_congr_left fun r _ => rule_renumber L ix r
      refine ih (L := { L with ifindex := ix }) (s := renumberFilters { L with ifindex := ix } s) hL ?_ ?_ ?_ ?_ hs
      · show s.input.map _ = _
        rw [h1, hmap]
      · show s.output.map _ = _
        rw [h2, hmap]
      · show s.redist.map _ = _
        rw [h3, List.map_append, hmap]
        rfl
      · show s.install.map _ = _
        rw [h4, List.map_append, hmap]
        rfl

/-- An `interface` line from a control connection. -/
theorem parseString_interface {L : Libc} {s : Conf} (hs : s.final = true) (hw : s.opts.localWrite = true)
    {name : Bytes} {l : List IClause} {t e : Bytes} (h : LineText L (.interface name l) t) (he : Ends e [])
    (hk : ∀ id, .key id ∈ l → s.keys.any (·.id == id) = true) :
    parseString L s (t ++ e) = (addIfconf s (l.foldl clausePut { name := name }), .ok .done) := by
  have hfin : ¬ (s.final = true ∧ ¬ s.opts.localWrite = true) := by simp [hw]
  cases h with
  | @interface name l g h w t hg hh hw ht =>
    have hw' : Word (ascii "interface") := word_kw _ (by decide)
    obtain ⟨e1, e2, e3⟩ := parseLine_start (L := L) (b := true) (s := s) (r := h ++ (w ++ (t ++ (e ++ [])))) hg hw' (hh.stop _)
    have ea : g ++ (ascii "interface" ++ (h ++ (w ++ t))) ++ e =
        g ++ (ascii "interface" ++ (h ++ (w ++ (t ++ (e ++ []))))) := by
      simp only [List.append_assoc, List.append_nil]
    have hne : (g ++ (ascii "interface" ++ (h ++ (w ++ (t ++ (e ++ [])))))).isEmpty = false := by
      rw [show ascii "interface" = 105 :: ascii "nterface" by decide]
      cases g <;> simp
    rw [ea]
    unfold parseString
    rw [hne, e1]
    simp only [Bool.false_eq_true, if_false]
    have : parseLine L true s (ascii "interface" ++ (h ++ (w ++ (t ++ (e ++ []))))) =
        (addIfconf s (l.foldl clausePut { name := name }), .ok (.done, [])) := by
      unfold parseLine
      simp only [e2, Bool.false_eq_true, if_false, e3]
      rw [show keyword lineWords (ascii "interface") = some .interface by decide]
      simp only [if_neg hfin]
      rw [parseIfconf_text hh hw ht he hk]
    rw [this]
    rfl

/-- A `flush interface` line from a control connection. -/
theorem parseString_flush {L : Libc} {s : Conf} (hs : s.final = true) (hw : s.opts.localWrite = true)
    {g1 g2 g3 name e : Bytes} (h1 : ∀ x ∈ g1, BlankC x) (h2 : Gap g2) (h3 : Gap g3) (hn : Word name) (he : Ends e []) :
    parseString L s (g1 ++ (ascii "flush" ++ (g2 ++ (ascii "interface" ++ (g3 ++ (name ++ e)))))) =
      ((flushInterface s name).1, .ok (if (flushInterface s name).2 then .done else .noSuchInterface)) := by
  have hfin : ¬ (s.final = true ∧ ¬ s.opts.localWrite = true) := by simp [hw]
  have hw' : Word (ascii "flush") := word_kw _ (by decide)
  have hw2 : Word (ascii "interface") := word_kw _ (by decide)
  obtain ⟨e1, e2, e3⟩ := parseLine_start (L := L) (b := true) (s := s)
    (r := g2 ++ (ascii "interface" ++ (g3 ++ (name ++ e)))) h1 hw' (h2.stop _)
  have hne : (g1 ++ (ascii "flush" ++ (g2 ++ (ascii "interface" ++ (g3 ++ (name ++ e)))))).isEmpty = false := by
    rw [show ascii "flush" = 102 :: ascii "lush" by decide]
    cases g1 <;> simp
  have hes : Stop e := by have := he.stop; rwa [List.append_nil] at this
  have hee : skipEol e = .ok [] := by have := he.skipEol; rwa [List.append_nil] at this
  unfold parseString
  rw [hne, e1]
  simp only [Bool.false_eq_true, if_false]
  have : parseLine L true s (ascii "flush" ++ (g2 ++ (ascii "interface" ++ (g3 ++ (name ++ e))))) =
      ((flushInterface s name).1, .ok (if (flushInterface s name).2 then .done else .noSuchInterface, [])) := by
    unfold parseLine
    simp only [e2, Bool.false_eq_true, if_false, e3]
    rw [show keyword lineWords (ascii "flush") = some .flush by decide]
    simp only [if_neg hfin]
    unfold flushLine
    rw [getword_text _ _ _ h2.2 hw2 (h3.stop _)]
    simp only [if_true]
    rw [getword_text _ _ _ h3.2 hn hes]
    simp only
    rw [hee]
  rw [this]
  rfl

end Babel
