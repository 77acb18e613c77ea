import Verif.Lemmas.Config5
/-
The configuration after reading some lines.
-/
set_option linter.unusedSimpArgs false
set_option linter.unusedVariables false
namespace Babel
open Spec

/-- `i` is what the lines `ls` of interface `name` give. -/
def IsIf (ls : List (List IClause)) (i : IfConf) : Prop :=
  (∀ f : Field, f.get i = setBy f ls) ∧ i.key = keyBy ls

theorem IsIf.first (name : Bytes) (l : List IClause) : IsIf [l] (l.foldl clausePut { name := name }) := by
  refine ⟨fun f => ?_, ?_⟩
  · rw [get_line]
    have := setBy_append f [] l
    simp only [List.nil_append] at this
    rw [this]
    split
    · rfl
    · rename_i h; simp only [ne_eq, Classical.not_not] at h; rw [h]; rfl
  · rw [foldl_clausePut_key]
    have := keyBy_append [] l
    simp only [List.nil_append] at this
    rw [this]
    rfl

theorem IsIf.merge {ls : List (List IClause)} {x : IfConf} (h : IsIf ls x) (name : Bytes) (l : List IClause) (d : IfConf) :
    IsIf (ls ++ [l]) (mergeIfconf d (l.foldl clausePut { name := name }) x) := by
  refine ⟨fun f => ?_, ?_⟩
  · rw [merge_get, get_line, setBy_append, h.1]
  · rw [merge_key, foldl_clausePut_key, keyBy_append, h.2]
    simp

/-- The configuration is what the lines say. -/
structure Meaning (L : Libc) (ls : List CLine) (s : Conf) : Prop where
  input : s.input = (ls.filterMap (CLine.rule? .inp)).map (ruleFilter L)
  output : s.output = (ls.filterMap (CLine.rule? .out)).map (ruleFilter L)
  redist : s.redist = (ls.filterMap (CLine.rule? .redistribute)).map (ruleFilter L)
  install : s.install = (ls.filterMap (CLine.rule? .install)).map (ruleFilter L)
  noDefault : s.defaults = none ↔ ls.filterMap CLine.default? = []
  default : ∀ d, s.defaults = some d → IsIf (ls.filterMap CLine.default?) d
  nodup : (s.ifconfs.map (·.name)).Nodup
  noIf : ∀ n, n ∈ s.ifconfs.map (·.name) ↔ ls.filterMap (CLine.interface? n) ≠ []
  ifs : ∀ i ∈ s.ifconfs, IsIf (ls.filterMap (CLine.interface? i.name)) i
  keysNodup : (s.keys.map (·.id)).Nodup
  keys : ∀ id, s.keys.find? (·.id == id) = keyNamed id ls
  opts : s.opts = (ls.filterMap CLine.option?).foldl (fun o f => f o) {}
  final : s.final = false
  noIfs : s.ifs = []

theorem Meaning.start (L : Libc) : Meaning L [] {} := by
  constructor <;> first | rfl | simp [Spec.keyNamed, lastOf]

theorem find_addKey {ks : List KeyDef} {k : KeyDef} (h : (ks.map (·.id)).Nodup) (id : Bytes) :
    (addKey ks k).find? (·.id == id) = if k.id = id then some k else ks.find? (·.id == id) := by
  unfold addKey
  split
  · rename_i hany
    clear h
    induction ks with
    | nil => simp at hany
    | cons x ks ih =>
      rw [List.map_cons, List.find?_cons, List.find?_cons]
      by_cases hx : x.id = k.id
      · rw [if_pos (by simpa using hx)]
        by_cases hk : k.id = id
        · simp [hk]
        · have h1 : (k.id == id) = false := by simpa using hk
          have h2 : (x.id == id) = false := by rw [hx]; exact h1
          rw [h1, h2, if_neg hk]
          simp only
          by_cases hany2 : ks.any (·.id == k.id) = true
          · rw [ih hany2, if_neg hk]
          · have : ks.map (fun x => if x.id == k.id then k else x) = ks := by
              conv => rhs; rw [← List.map_id ks]
              apply List.map_congr_left
              intro y hy
              rw [if_neg]
              · rfl
              · intro he
                exact hany2 (List.any_eq_true.2 ⟨y, hy, he⟩)
            rw [this]
      · rw [if_neg (by simpa using hx)]
        have hany2 : ks.any (·.id == k.id) = true := by
          rw [List.any_cons] at hany
          have : (x.id == k.id) = false := by simpa using hx
          simpa [this] using hany
        rw [ih hany2]
        by_cases hk : k.id = id
        · have : (x.id == id) = false := by rw [← hk]; simpa using hx
          rw [this, if_pos hk]
        · rw [if_neg hk, if_neg hk]
  · rename_i hany
    rw [List.find?_append]
    by_cases hk : k.id = id
    · rw [if_pos hk]
      have : ks.find? (·.id == id) = none := by
        rw [List.find?_eq_none]
        intro x hx he
        exact hany (List.any_eq_true.2 ⟨x, hx, by rw [hk]; exact he⟩)
      rw [this]
      simp [hk]
    · rw [if_neg hk]
      simp [hk]

theorem nodup_addKey {ks : List KeyDef} {k : KeyDef} (h : (ks.map (·.id)).Nodup) :
    ((addKey ks k).map (·.id)).Nodup := by
  unfold addKey
  split
  · rw [List.map_map]
    have : List.map ((·.id) ∘ fun x => if x.id == k.id then k else x) ks = ks.map (·.id) := by
      apply List.map_congr_left
      intro x hx
      simp only [Function.comp]
      split
      · rename_i he; exact (by simpa using he : x.id = k.id).symm
      · rfl
    rw [this]
    exact h
  · rename_i hany
    rw [List.map_append, List.nodup_append]
    refine ⟨h, by simp, ?_⟩
    intro a ha b hb
    simp only [List.map_cons, List.map_nil, List.mem_singleton] at hb
    subst hb
    rintro rfl
    simp only [List.mem_map] at ha
    obtain ⟨x, hx, he⟩ := ha
    exact hany (List.any_eq_true.2 ⟨x, hx, by simpa using he⟩)

theorem keyNamed_append (id : Bytes) (ls : List CLine) (x : CLine) :
    keyNamed id (ls ++ [x]) = ((CLine.key? x).filter (·.id = id)).or (keyNamed id ls) := by
  unfold keyNamed
  rw [lastOf_append, lastOf_cons, lastOf_nil]
  simp

theorem addIfconf_list {s : Conf} {i : IfConf} (hs : s.final = false) :
    addIfconf s i = { s with
      ifconfs :=
        if s.ifconfs.any (·.name == i.name) then
          s.ifconfs.map (fun x => if x.name == i.name then mergeIfconf x i x else x)
        else s.ifconfs ++ [i] } := by
  unfold addIfconf
  simp only [hs, Bool.false_eq_true, if_false]

theorem Meaning.step {L : Libc} {ls : List CLine} {s : Conf} (h : Meaning L ls s) (x : CLine) :
    Meaning L (ls ++ [x]) (applyLine L s x) := by
  have hrules : ∀ c, (ls ++ [x]).filterMap (CLine.rule? c) = ls.filterMap (CLine.rule? c) ++ (CLine.rule? c x).toList := by
    intro c; rw [List.filterMap_append]; cases hx : CLine.rule? c x <;> simp [hx]
  have hdef : (ls ++ [x]).filterMap CLine.default? = ls.filterMap CLine.default? ++ (CLine.default? x).toList := by
    rw [List.filterMap_append]; cases hx : CLine.default? x <;> simp [hx]
  have hif : ∀ n, (ls ++ [x]).filterMap (CLine.interface? n) = ls.filterMap (CLine.interface? n) ++ (CLine.interface? n x).toList := by
    intro n; rw [List.filterMap_append]; cases hx : CLine.interface? n x <;> simp [hx]
  have hopt : (ls ++ [x]).filterMap CLine.option? = ls.filterMap CLine.option? ++ (CLine.option? x).toList := by
    rw [List.filterMap_append]; cases hx : CLine.option? x <;> simp [hx]
  obtain ⟨h1, h2, h3, h4, h5, h6, h7, h8, h9, h10, h11, h12, h13, h14⟩ := h
  have hfin := applyLine_final (L := L) (x := x) h13
  cases x with
  | blank =>
    refine ⟨by rw [hrules]; simpa [CLine.rule?, applyLine] using h1, by rw [hrules]; simpa [CLine.rule?, applyLine] using h2,
      by rw [hrules]; simpa [CLine.rule?, applyLine] using h3, by rw [hrules]; simpa [CLine.rule?, applyLine] using h4,
      by rw [hdef]; simpa [CLine.default?, applyLine] using h5, by rw [hdef]; simpa [CLine.default?, applyLine] using h6,
      h7, fun n => by rw [hif]; simpa [CLine.interface?, applyLine] using h8 n,
      fun i hi => by rw [hif]; simpa [CLine.interface?, applyLine] using h9 i hi, h10,
      fun id => by rw [keyNamed_append]; simpa [CLine.key?, applyLine] using h11 id,
      by rw [hopt]; simpa [CLine.option?, applyLine] using h12, hfin.1, by rw [hfin.2]; exact h14⟩
  | filter c r =>
    have frame : (applyLine L s (.filter c r)).defaults = s.defaults ∧ (applyLine L s (.filter c r)).ifconfs = s.ifconfs ∧
        (applyLine L s (.filter c r)).keys = s.keys ∧ (applyLine L s (.filter c r)).opts = s.opts := by
      cases c <;> exact ⟨rfl, rfl, rfl, rfl⟩
    refine ⟨by rw [hrules]; cases c <;> simp [CLine.rule?, applyLine, addRule, h1],
      by rw [hrules]; cases c <;> simp [CLine.rule?, applyLine, addRule, h2],
      by rw [hrules]; cases c <;> simp [CLine.rule?, applyLine, addRule, h3],
      by rw [hrules]; cases c <;> simp [CLine.rule?, applyLine, addRule, h4],
      by rw [hdef, frame.1]; simpa [CLine.default?] using h5, by rw [hdef, frame.1]; simpa [CLine.default?] using h6,
      by rw [frame.2.1]; exact h7, fun n => by rw [hif, frame.2.1]; simpa [CLine.interface?] using h8 n,
      fun i hi => by rw [hif]; simpa [CLine.interface?] using h9 i (by rwa [frame.2.1] at hi),
      by rw [frame.2.2.1]; exact h10,
      fun id => by rw [keyNamed_append, frame.2.2.1]; simpa [CLine.key?] using h11 id,
      by rw [hopt, frame.2.2.2]; simpa [CLine.option?] using h12, hfin.1, by rw [hfin.2]; exact h14⟩
  | interface name l =>
    have e : applyLine L s (.interface name l) = addIfconf s (l.foldl clausePut { name := name }) := rfl
    have hname : (l.foldl clausePut ({ name := name } : IfConf)).name = name := foldl_clausePut_name _ _
    rw [e, addIfconf_list h13, hname]
    refine ⟨by rw [hrules]; simpa [CLine.rule?] using h1, by rw [hrules]; simpa [CLine.rule?] using h2,
      by rw [hrules]; simpa [CLine.rule?] using h3, by rw [hrules]; simpa [CLine.rule?] using h4,
      by rw [hdef]; simpa [CLine.default?] using h5, by rw [hdef]; simpa [CLine.default?] using h6,
      ?_, fun n => ?_, fun i hi => ?_, h10,
      fun id => by rw [keyNamed_append]; simpa [CLine.key?] using h11 id,
      by rw [hopt]; simpa [CLine.option?] using h12, h13, h14⟩
    · show (List.map IfConf.name (if _ then _ else _)).Nodup
      split
      · rw [List.map_map]
        have : List.map ((·.name) ∘ fun x => if x.name == name then mergeIfconf x (l.foldl clausePut { name := name }) x else x) s.ifconfs
            = s.ifconfs.map (·.name) := by
          apply List.map_congr_left
          intro x hx
          simp only [Function.comp]
          split <;> simp [merge_name]
        rw [this]
        exact h7
      · rename_i hany
        rw [List.map_append, List.nodup_append]
        refine ⟨h7, by simp, ?_⟩
        intro a ha b hb
        simp only [List.map_cons, List.map_nil, List.mem_singleton, hname] at hb
        subst hb
        rintro rfl
        simp only [List.mem_map] at ha
        obtain ⟨x, hx, he⟩ := ha
        exact hany (List.any_eq_true.2 ⟨x, hx, by simpa using he⟩)
    · rw [hif]
      have hn := h8 n
      show n ∈ List.map IfConf.name (if _ then _ else _) ↔ _
      split
      · rename_i hany
        rw [List.map_map]
        have : List.map ((·.name) ∘ fun x => if x.name == name then mergeIfconf x (l.foldl clausePut { name := name }) x else x) s.ifconfs
            = s.ifconfs.map (·.name) := by
          apply List.map_congr_left
          intro x hx
          simp only [Function.comp]
          split <;> simp [merge_name]
        rw [this, hn]
        by_cases hnn : name = n
        · subst hnn
          have : ls.filterMap (CLine.interface? name) ≠ [] := by
            rw [← hn]
            rw [List.any_eq_true] at hany
            obtain ⟨x, hx, he⟩ := hany
            exact List.mem_map.2 ⟨x, hx, by simpa using he⟩
          simp [this]
        · simp [CLine.interface?, hnn]
      · rw [List.map_append, List.mem_append, hn]
        simp only [List.map_cons, List.map_nil, List.mem_singleton, hname]
        by_cases hnn : name = n
        · subst hnn; simp [CLine.interface?]
        · simp [CLine.interface?, hnn, Ne.symm hnn]
    · rw [hif]
      have hi : i ∈ (if s.ifconfs.any (·.name == name) then
        s.ifconfs.map (fun x => if x.name == name then mergeIfconf x (l.foldl clausePut { name := name }) x else x)
        else s.ifconfs ++ [l.foldl clausePut { name := name }]) := hi
      split at hi
      · rw [List.mem_map] at hi
        obtain ⟨x, hx, rfl⟩ := hi
        by_cases hxn : x.name = name
        · have h9 := h9 x hx
          rw [hxn] at h9
          simp only [hxn, beq_self_eq_true, if_true, merge_name, CLine.interface?, Option.toList_some]
          exact h9.merge _ _ _
        · rw [if_neg (by simpa using hxn)]
          have h9 := h9 x hx
          simpa [CLine.interface?, Ne.symm hxn] using h9
      · rename_i hany
        rw [List.mem_append] at hi
        rcases hi with hi | hi
        · rename_i hi0
          have hne : name ≠ i.name := by
            intro he
            exact hany (List.any_eq_true.2 ⟨i, hi, by simp [he]⟩)
          have h9 := h9 i hi
          simpa [CLine.interface?, hne] using h9
        · simp only [List.mem_singleton] at hi
          subst hi
          rw [hname]
          have : ls.filterMap (CLine.interface? name) = [] := by
            refine Classical.byContradiction fun hc => ?_
            have := (h8 name).2 hc
            rw [List.mem_map] at this
            obtain ⟨x, hx, he⟩ := this
            exact hany (List.any_eq_true.2 ⟨x, hx, by simpa using he⟩)
          rw [this]
          simp only [CLine.interface?, if_true, Option.toList_some, List.nil_append]
          exact IsIf.first _ _
  | default l =>
    refine ⟨by rw [hrules]; simpa [CLine.rule?, applyLine] using h1, by rw [hrules]; simpa [CLine.rule?, applyLine] using h2,
      by rw [hrules]; simpa [CLine.rule?, applyLine] using h3, by rw [hrules]; simpa [CLine.rule?, applyLine] using h4,
      by rw [hdef]; simp [CLine.default?, applyLine], ?_,
      h7, fun n => by rw [hif]; simpa [CLine.interface?, applyLine] using h8 n,
      fun i hi => by rw [hif]; simpa [CLine.interface?, applyLine] using h9 i hi, h10,
      fun id => by rw [keyNamed_append]; simpa [CLine.key?, applyLine] using h11 id,
      by rw [hopt]; simpa [CLine.option?, applyLine] using h12, hfin.1, by rw [hfin.2]; exact h14⟩
    intro d hd
    rw [hdef]
    simp only [applyLine, Option.some.injEq] at hd
    subst hd
    simp only [CLine.default?, Option.toList_some]
    rcases hs : s.defaults with _ | d
    · rw [h5.1 hs]
      exact IsIf.first _ _
    · exact (h6 d hs).merge _ _ _
  | key l =>
    have frame : (applyLine L s (.key l)).input = s.input ∧ (applyLine L s (.key l)).output = s.output ∧
        (applyLine L s (.key l)).redist = s.redist ∧ (applyLine L s (.key l)).install = s.install ∧
        (applyLine L s (.key l)).defaults = s.defaults ∧ (applyLine L s (.key l)).ifconfs = s.ifconfs ∧
        (applyLine L s (.key l)).opts = s.opts := by
      unfold applyLine; simp only; cases keyDef l <;> exact ⟨rfl, rfl, rfl, rfl, rfl, rfl, rfl⟩
    have hkeys := applyLine_keys (L := L) (s := s) (x := .key l)
    simp only at hkeys
    refine ⟨by rw [hrules, frame.1]; simpa [CLine.rule?] using h1, by rw [hrules, frame.2.1]; simpa [CLine.rule?] using h2,
      by rw [hrules, frame.2.2.1]; simpa [CLine.rule?] using h3, by rw [hrules, frame.2.2.2.1]; simpa [CLine.rule?] using h4,
      by rw [hdef, frame.2.2.2.2.1]; simpa [CLine.default?] using h5, by rw [hdef, frame.2.2.2.2.1]; simpa [CLine.default?] using h6,
      by rw [frame.2.2.2.2.2.1]; exact h7, fun n => by rw [hif, frame.2.2.2.2.2.1]; simpa [CLine.interface?] using h8 n,
      fun i hi => by rw [hif]; simpa [CLine.interface?] using h9 i (by rwa [frame.2.2.2.2.2.1] at hi),
      ?_, fun id => ?_,
      by rw [hopt, frame.2.2.2.2.2.2]; simpa [CLine.option?] using h12, hfin.1, by rw [hfin.2]; exact h14⟩
    · rw [hkeys]
      cases keyDef l with
      | none => exact h10
      | some k => exact nodup_addKey h10
    · rw [hkeys, keyNamed_append]
      simp only [CLine.key?]
      cases keyDef l with
      | none => simpa using h11 id
      | some k =>
        simp only
        rw [find_addKey h10, h11]
        by_cases hk : k.id = id <;> simp [hk, Option.filter]
  | option f =>
    refine ⟨by rw [hrules]; simpa [CLine.rule?, applyLine] using h1, by rw [hrules]; simpa [CLine.rule?, applyLine] using h2,
      by rw [hrules]; simpa [CLine.rule?, applyLine] using h3, by rw [hrules]; simpa [CLine.rule?, applyLine] using h4,
      by rw [hdef]; simpa [CLine.default?, applyLine] using h5, by rw [hdef]; simpa [CLine.default?, applyLine] using h6,
      h7, fun n => by rw [hif]; simpa [CLine.interface?, applyLine] using h8 n,
      fun i hi => by rw [hif]; simpa [CLine.interface?, applyLine] using h9 i hi, h10,
      fun id => by rw [keyNamed_append]; simpa [CLine.key?, applyLine] using h11 id,
      ?_, hfin.1, by rw [hfin.2]; exact h14⟩
    rw [hopt]
    simp [CLine.option?, applyLine, h12]

theorem Meaning.steps {L : Libc} {ls : List CLine} {s : Conf} (h : Meaning L ls s) (xs : List CLine) :
    Meaning L (ls ++ xs) (xs.foldl (applyLine L) s) := by
  induction xs generalizing ls s with
  | nil => simpa using h
  | cons x xs ih =>
    have := ih (h.step x)
    simpa using this

theorem foldl_keys {L : Libc} (xs : List CLine) (s : Conf) (id : Bytes)
    (h : s.keys.any (·.id == id) = true ∨ ∃ x ∈ xs, ∃ k, x.key? = some k ∧ k.id = id) :
    (xs.foldl (applyLine L) s).keys.any (·.id == id) = true := by
  induction xs generalizing s with
  | nil =>
    rcases h with h | ⟨x, hx, _⟩
    · exact h
    · simp at hx
  | cons x xs ih =>
    rw [List.foldl_cons]
    apply ih
    have hmono : s.keys.any (·.id == id) = true → (applyLine L s x).keys.any (·.id == id) = true := by
      intro h0
      rw [applyLine_keys]
      split
      · split
        · exact any_addKey.2 (.inl h0)
        · exact h0
      · exact h0
    rcases h with h | ⟨y, hy, k, hk, rfl⟩
    · exact .inl (hmono h)
    · simp only [List.mem_cons] at hy
      rcases hy with rfl | hy
      · left
        cases y with
        | key l =>
          rw [applyLine_keys]
          simp only [CLine.key?] at hk
          simp only [hk]
          exact any_addKey.2 (.inr rfl)
        | _ => simp [CLine.key?] at hk
      · exact .inr ⟨y, hy, k, hk, rfl⟩

theorem parseFiles_text {L : Libc} (hL : LibcOk L) {known : Bytes → Prop} {ls : List CLine} {ts : List Bytes}
    (h : FilesText L known ls ts) (ls0 : List CLine) (s : Conf) (hm : Meaning L ls0 s)
    (hk : ∀ id, known id → s.keys.any (·.id == id) = true) :
    ∃ s', parseFiles L s ts = (s', .ok ()) ∧ Meaning L (ls0 ++ ls) s' := by
  induction h generalizing s ls0 with
  | nil => exact ⟨s, rfl, by simpa using hm⟩
  | @cons known xs ys t ts h1 h2 ih =>
    have e := parseFile_text hL h1 s hm.final hk
    obtain ⟨s', e2, hm'⟩ := ih (ls0 ++ xs) (xs.foldl (applyLine L) s) (hm.steps xs) (by
      rintro id (hid | hid)
      · exact foldl_keys xs s id (.inl (hk id hid))
      · exact foldl_keys xs s id (.inr hid))
    refine ⟨s', ?_, by simpa using hm'⟩
    unfold parseFiles
    rw [e]
    exact e2

/-! ### The end of the configuration -/

theorem foldl_addInterface {α : Type} (nm : α → Bytes) (ref : α → ConfRef) (l : List α) (s : Conf)
    (hn : (l.map nm).Nodup) (hd : ∀ x ∈ l, ∀ y ∈ s.ifs, y.1 ≠ nm x) :
    l.foldl (fun s i => addInterface s (nm i) (ref i)) s = { s with ifs := s.ifs ++ l.map fun i => (nm i, ref i) } := by
  induction l generalizing s with
  | nil => simp
  | cons i l ih =>
    rw [List.foldl_cons]
    have e : addInterface s (nm i) (ref i) = { s with ifs := s.ifs ++ [(nm i, ref i)] } := by
      unfold addInterface
      rw [if_neg]
      intro h
      rw [List.any_eq_true] at h
      obtain ⟨y, hy, he⟩ := h
      exact hd i (by simp) y hy (by simpa using he)
    rw [e, ih]
    · simp
    · simp only [List.map_cons, List.nodup_cons] at hn; exact hn.2
    · intro x hx y hy
      simp only [List.mem_append, List.mem_singleton] at hy
      rcases hy with hy | rfl
      · exact hd x (by simp [hx]) y hy
      · simp only [List.map_cons, List.nodup_cons] at hn
        intro he
        simp only at he
        exact hn.1 (by rw [he]; exact List.mem_map.2 ⟨x, hx, rfl⟩)

theorem mergedConf_name (s : Conf) (i : IfConf) : (mergedConf s i).name = i.name := by
  unfold mergedConf; cases s.defaults <;> rfl

theorem finalise_eq {L : Libc} {ls : List CLine} {s : Conf} (h : Meaning L ls s) :
    finalise s = { s with
      redist := s.redist ++ [{ proto := RTPROT_BABEL_LOCAL }]
      install := s.install ++ [{}]
      ifconfs := []
      final := true
      ifs := s.ifconfs.map fun i => (i.name, ConfRef.own (mergedConf s i)) } := by
  unfold finalise
  simp only
  rw [List.foldl_map]
  have e : ∀ i, mergedConf { s with redist := s.redist ++ [{ proto := RTPROT_BABEL_LOCAL }], install := s.install ++ [{}] } i
      = mergedConf s i := fun _ => rfl
  simp only [e]
  have := foldl_addInterface (fun i => (mergedConf s i).name) (fun i => ConfRef.own (mergedConf s i)) s.ifconfs
    { s with redist := s.redist ++ [{ proto := RTPROT_BABEL_LOCAL }], install := s.install ++ [{}] }
    (by simpa [mergedConf_name] using h.nodup) (by simp [h.noIfs])
  simp only at this
  rw [this]
  simp [h.noIfs, mergedConf_name]

theorem find_own {s : Conf} {l : List IfConf} (g : IfConf → IfConf) {i : IfConf} (hi : i ∈ l) (hn : (l.map (·.name)).Nodup) :
    (l.map fun i => (i.name, ConfRef.own (g i))).find? (·.1 == i.name) = some (i.name, .own (g i)) := by
  induction l with
  | nil => simp at hi
  | cons x l ih =>
    rw [List.map_cons, List.find?_cons]
    simp only [List.mem_cons] at hi
    simp only [List.map_cons, List.nodup_cons] at hn
    rcases hi with rfl | hi
    · simp
    · have : (x.name == i.name) = false := by
        simp only [beq_eq_false_iff_ne, ne_eq]
        intro he
        exact hn.1 (by rw [he]; exact List.mem_map.2 ⟨i, hi, rfl⟩)
      simp only [this]
      exact ih hi hn.2

theorem merged_follows {L : Libc} {ls : List CLine} {s : Conf} (h : Meaning L ls s) {i : IfConf} (hi : i ∈ s.ifconfs) :
    IfFollows ls i.name (mergedConf s i) := by
  obtain ⟨g1, g2⟩ := h.ifs i hi
  unfold IfFollows mergedConf
  rcases hd : s.defaults with _ | d
  · have e := h.noDefault.1 hd
    simp only
    rw [e]
    refine ⟨fun f => ?_, by rw [g2]; simp [keyBy, lastOf]⟩
    rw [g1]
    split
    · rfl
    · rename_i hz; simp only [ne_eq, Classical.not_not] at hz; rw [hz]; rfl
  · obtain ⟨g3, g4⟩ := h.default d hd
    simp only
    refine ⟨fun f => ?_, by rw [merge_key, g2, g4]⟩
    rw [merge_get, g1, g3]

theorem addInterface_ifConf {s : Conf} {n : Bytes} {ref : ConfRef} {m : Bytes} :
    (addInterface s n ref).ifs.find? (·.1 == m) =
      (s.ifs.find? (·.1 == m)).or (if n = m then some (n, ref) else none) := by
  unfold addInterface
  split
  · rename_i h
    rcases hf : s.ifs.find? (·.1 == m) with _ | x
    · by_cases hnm : n = m
      · subst hnm
        rw [List.find?_eq_none] at hf
        rw [List.any_eq_true] at h
        obtain ⟨y, hy, he⟩ := h
        exact absurd he (hf y hy)
      · simp [hnm]
    · rw [hf]; rfl
  · simp only
    rw [List.find?_append]
    congr 1
    by_cases hnm : n = m <;> simp [hnm]

end Babel
