import Verif.Lemmas.Config7
/-
Every text is either accepted or rejected; control connections.
-/
set_option linter.unusedSimpArgs false
set_option linter.unusedVariables false
namespace Babel
open Spec

/-- The parser consumed something, or there is a syntax error. -/
def Safe {α : Type} (n : Nat) (x : Except Fail (α × Bytes)) : Prop :=
  match x with
  | .ok (_, r) => r.length < n
  | .error e => e = .bad

/-- As `Safe`, but memory may be freed twice. -/
def NotStuck {α : Type} (n : Nat) (x : Except Fail (α × Bytes)) : Prop :=
  match x with
  | .ok (_, r) => r.length < n
  | .error e => e ≠ .stuck

theorem Safe.notStuck {α : Type} {n : Nat} {x : Except Fail (α × Bytes)} (h : Safe n x) : NotStuck n x := by
  rcases x with e | ⟨a, r⟩
  · have : e = .bad := h
    subst this
    show Fail.bad ≠ Fail.stuck
    decide
  · exact h

theorem Safe.bind {α β : Type} {n m : Nat} {x : Except Fail (α × Bytes)} {f : α × Bytes → Except Fail (β × Bytes)}
    (h : Safe n x) (hf : ∀ a r, r.length < n → Safe m (f (a, r))) : Safe m (x >>= f) := by
  rcases x with e | ⟨a, r⟩
  · exact h
  · exact hf a r h

theorem NotStuck.bind {α β : Type} {n m : Nat} {x : Except Fail (α × Bytes)} {f : α × Bytes → Except Fail (β × Bytes)}
    (h : NotStuck n x) (hf : ∀ a r, r.length < n → NotStuck m (f (a, r))) : NotStuck m (x >>= f) := by
  rcases x with e | ⟨a, r⟩
  · exact h
  · exact hf a r h

theorem Safe.pure {α : Type} {n : Nat} {a : α} {r : Bytes} (h : r.length < n) :
    Safe n (Pure.pure (a, r) : Except Fail (α × Bytes)) := h

theorem Safe.throw {α : Type} {n : Nat} : Safe n (throw .bad : Except Fail (α × Bytes)) := rfl

theorem length_skipWs (s : Bytes) : (skipWs s).length ≤ s.length := (List.dropWhile_suffix _).length_le

theorem length_skipToEol (s : Bytes) (h : s ≠ []) : (skipToEol s).length < s.length := by
  unfold skipToEol
  rw [List.length_drop]
  have := (List.dropWhile_suffix (l := s) (p := fun x => x != (10 : UInt8))).length_le
  have : 0 < s.length := List.length_pos_iff.2 h
  omega

theorem length_skipToEol_le (s : Bytes) : (skipToEol s).length ≤ s.length := by
  by_cases h : s = []
  · subst h; decide
  · have := length_skipToEol s h; omega

theorem safe_getword (inp : Bytes) : Safe inp.length (getword inp) := by
  have hl := length_skipWs inp
  unfold getword
  simp only
  split
  · rfl
  · split
    · rfl
    · rename_i c rest hc
      split
      · rfl
      · split
        · rfl
        · show (rest.dropWhile wordChar).length < inp.length
          have := (List.dropWhile_suffix (l := rest) (p := wordChar)).length_le
          rw [hc] at hl
          simp only [List.length_cons] at hl
          omega

theorem safe_quoted (i : Nat) (inp : Bytes) : Safe inp.length (quoted i inp) := by
  induction h : inp.length using Nat.strongRecOn generalizing i inp with
  | ind n ih =>
    cases inp with
    | nil => rfl
    | cons c rest =>
      subst h
      unfold quoted
      split
      · rfl
      · split
        · show rest.length < _
          simp
        · split
          · split
            · rfl
            · rename_i d rest'
              refine (ih rest'.length (by simp; omega) (i + 1) rest' rfl).bind fun a r hr => ?_
              exact Safe.pure (by simp only [List.length_cons]; omega)
          · refine (ih rest.length (by simp) (i + 1) rest rfl).bind fun a r hr => ?_
            exact Safe.pure (by simp only [List.length_cons]; omega)

theorem safe_getstring (inp : Bytes) : Safe inp.length (getstring inp) := by
  have hl := length_skipWs inp
  unfold getstring
  simp only
  split
  · rfl
  · split
    · have := safe_getword (skipWs inp)
      rcases h : getword (skipWs inp) with e | ⟨a, r⟩
      · rw [h] at this; exact this
      · rw [h] at this
        have : r.length < (skipWs inp).length := this
        show r.length < inp.length
        omega
    · refine (safe_quoted 0 ((skipWs inp).drop 1)).bind fun a r hr => ?_
      apply Safe.pure
      rw [List.length_drop] at hr
      simp only
      omega

theorem safe_word {α : Type} {inp : Bytes} {g : Bytes → Option α} :
    Safe inp.length (getword inp >>= fun (t, r) => match g t with
      | some i => (pure (i, r) : Except Fail (α × Bytes))
      | none => throw .bad) := by
  refine (safe_getword inp).bind fun a r hr => ?_
  simp only
  split
  · exact hr
  · rfl

theorem safe_getint (inp : Bytes) : Safe inp.length (getint inp) := by
  unfold getint
  refine (safe_getword inp).bind fun a r hr => ?_
  simp only
  split
  · exact hr
  · rfl

theorem safe_getthousands (inp : Bytes) : Safe inp.length (getthousands inp) := by
  unfold getthousands
  refine (safe_getword inp).bind fun a r hr => ?_
  simp only
  split
  · rfl
  · exact hr

theorem safe_getbool (inp : Bytes) : Safe inp.length (getbool inp) := by
  unfold getbool
  refine (safe_getword inp).bind fun a r hr => ?_
  simp only
  split
  · exact hr
  · rfl

theorem safe_getip (L : Libc) (inp : Bytes) : Safe inp.length (getip L inp) := by
  unfold getip
  refine (safe_getword inp).bind fun a r hr => ?_
  simp only
  split
  · exact hr
  · rfl

theorem safe_getid (L : Libc) (inp : Bytes) : Safe inp.length (getid L inp) := by
  unfold getid
  refine (safe_getword inp).bind fun a r hr => ?_
  simp only
  split
  · exact hr
  · rfl

theorem safe_getnet (L : Libc) (inp : Bytes) : Safe inp.length (getnet L inp) := by
  unfold getnet
  refine (safe_getword inp).bind fun a r hr => ?_
  simp only
  split
  · exact hr
  · rfl

theorem safe_getIfType (inp : Bytes) : Safe inp.length (getIfType inp) := by
  unfold getIfType
  refine (safe_getword inp).bind fun a r hr => ?_
  simp only
  split
  · exact hr
  · rfl

theorem safe_gethex (inp : Bytes) : Safe inp.length (gethex inp) := by
  unfold gethex
  refine (safe_getword inp).bind fun a r hr => ?_
  simp only
  split
  · exact hr
  · rfl

theorem safe_setAf {f : Filter} {af : Af} {r : Bytes} {n : Nat} (h : r.length < n) :
    Safe n (f.setAf af >>= fun g => (pure (g, r) : Except Fail (Filter × Bytes))) := by
  unfold Filter.setAf
  split
  · exact h
  · split
    · exact h
    · rfl

theorem safe_filterClause (L : Libc) (f : Filter) (k : FKw) (inp : Bytes) :
    Safe (inp.length + 1) (filterClause L f k inp) := by
  unfold filterClause
  cases k <;> simp only
  case ip => exact (safe_getnet L inp).bind fun a r hr => safe_setAf (by (try simp only); omega)
  case srcIp => exact (safe_getnet L inp).bind fun a r hr => safe_setAf (by (try simp only); omega)
  case srcPrefix => exact (safe_getnet L inp).bind fun a r hr => safe_setAf (by (try simp only); omega)
  case prefSrc => exact (safe_getip L inp).bind fun a r hr => safe_setAf (by (try simp only); omega)
  case neigh => exact (safe_getip L inp).bind fun a r hr => Safe.pure (by (try simp only); omega)
  case id => exact (safe_getid L inp).bind fun a r hr => Safe.pure (by (try simp only); omega)
  case ifname => exact (safe_getstring inp).bind fun a r hr => Safe.pure (by (try simp only); omega)
  case locl => exact Safe.pure (by (try simp only); omega)
  case allow => exact Safe.pure (by (try simp only); omega)
  case deny => exact Safe.pure (by (try simp only); omega)
  case metric =>
    refine (safe_getint inp).bind fun a r hr => ?_
    simp only
    split
    · rfl
    · exact Safe.pure (by (try simp only); omega)
  case table =>
    refine (safe_getint inp).bind fun a r hr => ?_
    simp only
    split
    · rfl
    · exact Safe.pure (by (try simp only); omega)
  all_goals exact (safe_getint inp).bind fun a r hr => Safe.pure (by (try simp only); omega)

theorem safe_filterLoop (L : Libc) (fuel : Nat) (f : Filter) (inp : Bytes) (h : inp.length < fuel) :
    Safe (inp.length + 1) (filterLoop L fuel f inp) := by
  induction fuel generalizing f inp with
  | zero => omega
  | succ fuel ih =>
    have hl := length_skipWs inp
    unfold filterLoop
    simp only
    split
    · show (skipToEol _).length < _
      have := length_skipToEol_le (skipWs inp)
      omega
    · refine (safe_getword _).bind fun w r hr => ?_
      simp only
      split
      · rfl
      · refine (safe_filterClause L f _ r).bind fun g u hu => ?_
        have := ih g u (by omega)
        simp only
        rcases hx : filterLoop L fuel g u with e | ⟨a, v⟩
        · rw [hx] at this; exact this
        · rw [hx] at this
          have : v.length < u.length + 1 := this
          show v.length < _
          omega

theorem safe_parseFilter (L : Libc) (inp : Bytes) : Safe (inp.length + 1) (parseFilter L inp) := by
  unfold parseFilter
  exact (safe_filterLoop L _ _ inp (by omega)).bind fun a r hr => Safe.pure hr

theorem safe_ifClause (keys : List KeyDef) (i : IfConf) (k : IKw) (inp : Bytes) :
    Safe inp.length (ifClause keys i k inp) := by
  unfold ifClause
  cases k <;> simp only
  case type => exact (safe_getIfType inp).bind fun a r hr => Safe.pure (by (try simp only); omega)
  case key =>
    refine (safe_getword inp).bind fun a r hr => ?_
    simp only
    split
    · exact Safe.pure hr
    · rfl
  case rxcost =>
    refine (safe_getint inp).bind fun a r hr => ?_
    simp only
    split
    · rfl
    · exact Safe.pure hr
  case rttDecay =>
    refine (safe_getint inp).bind fun a r hr => ?_
    simp only
    split
    · rfl
    · exact Safe.pure hr
  case maxRttPenalty =>
    refine (safe_getint inp).bind fun a r hr => ?_
    simp only
    split
    · rfl
    · exact Safe.pure hr
  case helloInterval =>
    refine (safe_getthousands inp).bind fun a r hr => ?_
    simp only
    split
    · rfl
    · exact Safe.pure hr
  case updateInterval =>
    refine (safe_getthousands inp).bind fun a r hr => ?_
    simp only
    split
    · rfl
    · exact Safe.pure hr
  case rttMin =>
    refine (safe_getthousands inp).bind fun a r hr => ?_
    simp only
    split
    · rfl
    · exact Safe.pure hr
  case rttMax =>
    refine (safe_getthousands inp).bind fun a r hr => ?_
    simp only
    split
    · rfl
    · exact Safe.pure hr
  all_goals exact (safe_getbool inp).bind fun a r hr => Safe.pure (by (try simp only); omega)

theorem notStuck_ifLoop (keys : List KeyDef) (fuel : Nat) (again : Bool) (i : IfConf) (inp : Bytes) (h : inp.length < fuel) :
    NotStuck (inp.length + 1) (ifLoop keys fuel again i inp) := by
  induction fuel generalizing i inp again with
  | zero => omega
  | succ fuel ih =>
    have hl := length_skipWs inp
    unfold ifLoop
    simp only
    split
    · show (skipToEol _).length < _
      have := length_skipToEol_le (skipWs inp)
      omega
    · have hw := safe_getword (skipWs inp)
      rcases hx : getword (skipWs inp) with e | ⟨w, r⟩
      · simp only
        show (if again then Fail.doubleFree else .bad) ≠ .stuck
        split <;> decide
      · rw [hx] at hw
        have hw : r.length < (skipWs inp).length := hw
        simp only
        split
        · show Fail.bad ≠ .stuck
          decide
        · refine (safe_ifClause keys i _ r).notStuck.bind fun g u hu => ?_
          have := ih true g u (by omega)
          simp only
          rcases hy : ifLoop keys fuel true g u with e | ⟨a, v⟩
          · rw [hy] at this; exact this
          · rw [hy] at this
            have : v.length < u.length + 1 := this
            show v.length < _
            omega

theorem notStuck_parseIfconf (keys : List KeyDef) (inp : Bytes) : NotStuck (inp.length + 1) (parseIfconf keys inp) := by
  have hl := length_skipWs inp
  unfold parseIfconf
  simp only
  split
  · show Fail.bad ≠ .stuck
    decide
  · refine (safe_getstring _).notStuck.bind fun a r hr => ?_
    simp only
    have := notStuck_ifLoop keys (r.length + 1) false { name := a } r (by omega)
    rcases hy : ifLoop keys (r.length + 1) false { name := a } r with e | ⟨a, v⟩
    · rw [hy] at this; exact this
    · rw [hy] at this
      have : v.length < r.length + 1 := this
      show v.length < _
      omega

theorem safe_keyLoop (fuel : Nat) (k : KeyAcc) (inp : Bytes) (h : inp.length < fuel) :
    Safe (inp.length + 1) (keyLoop fuel k inp) := by
  induction fuel generalizing k inp with
  | zero => omega
  | succ fuel ih =>
    have hl := length_skipWs inp
    have next : ∀ (k : KeyAcc) (u : Bytes), u.length < inp.length → Safe (inp.length + 1) (keyLoop fuel k u) := by
      intro k u hu
      have := ih k u (by omega)
      rcases hx : keyLoop fuel k u with e | ⟨a, v⟩
      · rw [hx] at this; exact this
      · rw [hx] at this
        have : v.length < u.length + 1 := this
        show v.length < _
        omega
    unfold keyLoop
    simp only
    split
    · show (skipToEol _).length < _
      have := length_skipToEol_le (skipWs inp)
      omega
    · refine (safe_getword _).bind fun w r hr => ?_
      simp only
      split
      · rfl
      · exact (safe_getword r).bind fun a u hu => next _ _ (by (try simp only); omega)
      · refine (safe_getword r).bind fun a u hu => ?_
        simp only
        split
        · rfl
        · exact next _ _ (by (try simp only); omega)
      · exact (safe_gethex r).bind fun a u hu => next _ _ (by (try simp only); omega)

theorem safe_parseKey (inp : Bytes) : Safe (inp.length + 1) (parseKey inp) := by
  unfold parseKey
  refine (safe_keyLoop _ _ inp (by omega)).bind fun a r hr => ?_
  simp only
  split
  · rfl
  · split
    · split
      · rfl
      · exact Safe.pure hr
    · split
      · split
        · rfl
        · exact Safe.pure hr
      · rfl

theorem safe_optionValue (L : Libc) (o : Opts) (k : OKw) (inp : Bytes) : Safe inp.length (optionValue L o k inp) := by
  have hport : Safe inp.length (getport inp) := by
    unfold getport
    refine (safe_getint inp).bind fun a r hr => ?_
    simp only
    split
    · rfl
    · exact Safe.pure hr
  have hyes : Safe inp.length (getyes inp) := by
    unfold getyes
    exact (safe_getbool inp).bind fun a r hr => Safe.pure hr
  unfold optionValue
  cases k <;> simp only
  case group => exact (safe_getip L inp).bind fun a r hr => Safe.pure hr
  case routerId => exact (safe_getid L inp).bind fun a r hr => Safe.pure hr
  case debug =>
    refine (safe_getint inp).bind fun a r hr => ?_
    simp only
    split
    · rfl
    · exact Safe.pure hr
  case halfLife =>
    refine (safe_getint inp).bind fun a r hr => ?_
    simp only
    split
    · rfl
    · exact Safe.pure hr
  all_goals first
    | exact hport.bind fun a r hr => Safe.pure hr
    | exact hyes.bind fun a r hr => Safe.pure hr
    | exact (safe_getstring inp).bind fun a r hr => Safe.pure hr

theorem skipEol_cases (inp : Bytes) : skipEol inp = .error .bad ∨ ∃ r, skipEol inp = .ok r ∧ r.length ≤ inp.length := by
  have hl := length_skipWs inp
  unfold skipEol
  simp only
  split
  · exact .inr ⟨_, rfl, by have := length_skipToEol_le (skipWs inp); omega⟩
  · exact .inl rfl

/-- The line's keyword is `interface` or `default`. -/
def IfLine (inp : Bytes) : Prop :=
  ∃ r, getword (skipWs inp) = .ok (ascii "interface", r) ∨ getword (skipWs inp) = .ok (ascii "default", r)

theorem line_interface : ∀ p ∈ lineWords, p.2 = .interface → p.1 = "interface" := by decide
theorem line_default : ∀ p ∈ lineWords, p.2 = .default → p.1 = "default" := by decide

/-- The line was consumed, or rejected, or memory freed twice. -/
def LineSafe (inp : Bytes) (x : Except Fail (LineAct × Bytes)) : Prop :=
  match x with
  | .ok (_, r) => r.length < inp.length
  | .error e => e = .bad ∨ e = .doubleFree ∧ IfLine inp

theorem safe_parseLine (L : Libc) (b : Bool) (s : Conf) (inp : Bytes) (h : inp ≠ []) :
    LineSafe inp (parseLine L b s inp).2 := by
  have hl := length_skipWs inp
  have hpos : 0 < inp.length := List.length_pos_iff.2 h
  have hact : ∀ (a : LineAct) (r : Bytes), r.length < inp.length →
      LineSafe inp (actionLine b a r) := by
    intro a r hr
    unfold actionLine
    rcases skipEol_cases r with e | ⟨u, e, hu⟩
    · rw [e]; exact .inl rfl
    · rw [e]
      simp only
      cases b
      · exact .inl rfl
      · show u.length < _
        omega
  have hfil : ∀ (add : Conf → Filter → Conf) (r : Bytes), r.length < inp.length →
      LineSafe inp (filterLine L s add r).2 := by
    intro add r hr
    unfold filterLine
    split
    · exact .inl rfl
    · have := safe_parseFilter L r
      rcases hx : parseFilter L r with e | ⟨f, u⟩
      · rw [hx] at this; exact .inl this
      · rw [hx] at this
        have : u.length < r.length + 1 := this
        show u.length < _
        omega
  unfold parseLine
  simp only
  split
  · show (skipToEol _).length < _
    by_cases hn : skipWs inp = []
    · rw [hn]; exact hpos
    · have := length_skipToEol (skipWs inp) hn
      omega
  · have hw := safe_getword (skipWs inp)
    rcases hx : getword (skipWs inp) with e | ⟨w, r⟩
    · rw [hx] at hw
      exact .inl hw
    · rw [hx] at hw
      have hw : r.length < (skipWs inp).length := hw
      have hr : r.length < inp.length := by omega
      have kw : ∀ k, keyword lineWords w = some k → ∃ p ∈ lineWords, p.2 = k ∧ ascii p.1 = w := by
        intro k hk
        unfold keyword at hk
        rcases hf : lineWords.find? (fun p => ascii p.1 == w) with _ | p
        · rw [hf] at hk; simp at hk
        · rw [hf] at hk
          simp only [Option.map_some, Option.some.injEq] at hk
          exact ⟨p, List.mem_of_find?_eq_some hf, hk, by simpa using List.find?_some hf⟩
      simp only
      split
      · exact hact _ _ hr
      · exact hact _ _ hr
      · exact hact _ _ hr
      · exact hact _ _ hr
      · split
        · exact .inl rfl
        · split
          · exact hfil _ _ hr
          · exact hfil _ _ hr
          · exact hfil _ _ hr
          · exact hfil _ _ hr
          · rename_i hk
            have hline : w = ascii "interface" := by
              obtain ⟨p, hp, e, hw⟩ := kw _ hk
              rw [← hw, line_interface p hp e]
            have := notStuck_parseIfconf s.keys r
            rcases hy : parseIfconf s.keys r with e | ⟨i, u⟩
            · rw [hy] at this
              have : e ≠ .stuck := this
              cases e
              · exact .inl rfl
              · exact .inr ⟨rfl, r, .inl (by rw [hx, hline])⟩
              · exact absurd rfl this
            · rw [hy] at this
              have : u.length < r.length + 1 := this
              show u.length < _
              omega
          · rename_i hk
            have hline : w = ascii "default" := by
              obtain ⟨p, hp, e, hw⟩ := kw _ hk
              rw [← hw, line_default p hp e]
            have := notStuck_ifLoop s.keys (r.length + 1) false {} r (by omega)
            rcases hy : ifLoop s.keys (r.length + 1) false {} r with e | ⟨i, u⟩
            · rw [hy] at this
              have : e ≠ .stuck := this
              cases e
              · exact .inl rfl
              · exact .inr ⟨rfl, r, .inr (by rw [hx, hline])⟩
              · exact absurd rfl this
            · rw [hy] at this
              have : u.length < r.length + 1 := this
              show u.length < _
              omega
          · unfold flushLine
            have h1 := safe_getword r
            rcases hy : getword r with e | ⟨w1, r1⟩
            · rw [hy] at h1; exact .inl h1
            · rw [hy] at h1
              have h1 : r1.length < r.length := h1
              simp only
              split
              · have h2 := safe_getword r1
                rcases hz : getword r1 with e | ⟨w2, r2⟩
                · rw [hz] at h2; exact .inl h2
                · rw [hz] at h2
                  have h2 : r2.length < r1.length := h2
                  simp only
                  rcases skipEol_cases r2 with e | ⟨u, e, hu⟩
                  · rw [e]; exact .inl rfl
                  · rw [e]
                    show u.length < _
                    omega
              · exact .inl rfl
          · exact hact _ _ hr
          · have := safe_parseKey r
            rcases hy : parseKey r with e | ⟨k, u⟩
            · rw [hy] at this; exact .inl this
            · rw [hy] at this
              have : u.length < r.length + 1 := this
              show u.length < _
              omega
          · unfold parseOption
            split
            · exact .inl rfl
            · split
              · exact .inl rfl
              · rename_i k _ _
                have := safe_optionValue L s.opts k r
                rcases hy : optionValue L s.opts k r with e | ⟨o, u⟩
                · rw [hy] at this; exact .inl this
                · rw [hy] at this
                  have : u.length < r.length := this
                  simp only
                  rcases skipEol_cases u with e | ⟨v, e, hv⟩
                  · rw [e]; exact .inl rfl
                  · rw [e]
                    show v.length < _
                    omega

theorem fileLoop_notStuck (L : Libc) (fuel : Nat) (s : Conf) (inp : Bytes) (h : inp ≠ []) (hf : inp.length < fuel) :
    (fileLoop L fuel s inp).2 ≠ .error .stuck := by
  induction fuel generalizing s inp with
  | zero => omega
  | succ fuel ih =>
    have := safe_parseLine L false s inp h
    unfold fileLoop
    rcases hx : parseLine L false s inp with ⟨s', e | ⟨a, r⟩⟩
    · rw [hx] at this
      simp only [LineSafe] at this ⊢
      rcases this with rfl | ⟨rfl, -⟩ <;> simp
    · rw [hx] at this
      simp only [LineSafe] at this ⊢
      split
      · simp
      · rename_i hr
        exact ih _ _ (by simpa using hr) (by omega)

theorem parseFile_notStuck (L : Libc) (s : Conf) (t : Bytes) : (parseFile L s t).2 ≠ .error .stuck := by
  unfold parseFile
  split
  · simp
  · rename_i h
    exact fileLoop_notStuck L _ s t (by simpa using h) (by omega)

end Babel
