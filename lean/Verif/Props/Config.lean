import Verif.Lemmas.Config9
/-
Theorems about the configuration: filters (C41, C43), interfaces (C44), the language (C51) and
control connections (C52).
-/
set_option linter.unusedSimpArgs false
set_option linter.unusedVariables false
namespace Babel
open Spec

deriving instance DecidableEq for Except

namespace DemoConf

/-- A C library that knows a few words. -/
def L : Libc where
  pton4 w := if w = ascii "10.0.0.0" then some [10, 0, 0, 0] else if w = ascii "0.0.0.0" then some [0, 0, 0, 0] else none
  pton6 w := if w = ascii "2001:db8::" then some [0x20, 1, 0xd, 0xb8, 0, 0, 0, 0, 0, 0, 0, 0, 0, 0, 0, 0] else none
  eui64 w := if w = ascii "02:11:22:ff:fe:33:44:55" then some [2, 0x11, 0x22, 0xff, 0xfe, 0x33, 0x44, 0x55] else none
  ifindex w := if w = ascii "eth0" then 2 else if w = ascii "wlan0" then 3 else 0

theorem libcOk : LibcOk L := by
  refine ⟨?_, ?_, ?_⟩
  · intro w a h
    simp only [L] at h
    repeat (split at h; (cases h; rfl))
    cases h
  · intro w a h
    simp only [L] at h
    repeat (split at h; (cases h; rfl))
    cases h
  · intro w a h
    simp only [L] at h
    repeat (split at h; (cases h; rfl))
    cases h

def net10 : Bytes := [0, 0, 0, 0, 0, 0, 0, 0, 0, 0, 255, 255, 10, 0, 0, 0]

/-- `ip 10.0.0.0/8 ge 16 if eth0 metric 128` -/
def rule : List FClause := [.ip net10 104 .v4, .ge 16, .ifname (ascii "eth0"), .metric 128]

def ruleText : Bytes :=
  ascii " " ++ ((ascii "ip" ++ (ascii " " ++ ascii "10.0.0.0/8")) ++
    (ascii " " ++ ((ascii "ge" ++ (ascii " " ++ ascii "16")) ++
      (ascii "  " ++ ((ascii "if" ++ (ascii " " ++ (34 :: (ascii "eth0" ++ [34])))) ++
        (ascii " " ++ ((ascii "metric" ++ (ascii " " ++ ascii "0x80")) ++ [])))))))

example : ruleText = ascii " ip 10.0.0.0/8 ge 16  if \"eth0\" metric 0x80" := by decide +kernel

theorem word {w : Bytes} (h : w ≠ [] ∧ w.length ≤ 255 ∧ (∀ c ∈ w, ¬ (c = 32 ∨ c = 9 ∨ c = 13) ∧ c ≠ 10 ∧ c ≠ 35 ∧ c ≠ 0) ∧
    w.head? ≠ some 34) : Word w := h

theorem gap {g : Bytes} (h : g ≠ [] ∧ ∀ c ∈ g, c = 32 ∨ c = 9 ∨ c = 13) : Gap g := h

theorem masked10 : Masked (mapped [10, 0, 0, 0]) 104 net10 := by
  refine ⟨by decide, ?_, ?_⟩
  · intro i hi; rfl
  · intro i hi hi2
    have : ∀ i : Fin 128, 104 ≤ i.val → bitAt net10 i.val = false := by decide +kernel
    exact this ⟨i, hi2⟩ hi

theorem netText10 : NetText L (ascii "10.0.0.0/8") net10 104 .v4 := by
  rw [show ascii "10.0.0.0/8" = ascii "10.0.0.0" ++ 47 :: ascii "8" by decide +kernel]
  exact NetText.net4 (b := ascii "10.0.0.0") (t := ascii "8") (n := 8) (by decide) (by decide) (.v4 (by decide +kernel))
    (by
      rw [show ascii "8" = [56] by decide +kernel]
      exact .dec (.cons (d := 8) ⟨by decide, .inl rfl⟩ (by decide) .nil) (by decide) (by decide) (by decide)) (by decide) masked10

theorem num16 : NumText (ascii "16") 16 := by
  rw [show ascii "16" = [49, 54] by decide +kernel]
  exact
  .dec (.cons (d := 1) ⟨by decide, .inl rfl⟩ (by decide) (.cons (d := 6) ⟨by decide, .inl rfl⟩ (by decide) .nil))
    (by decide) (by decide) (by decide)

theorem num96 : NumText (ascii "96") 96 := by
  rw [show ascii "96" = [57, 54] by decide +kernel]
  exact
  .dec (.cons (d := 9) ⟨by decide, .inl rfl⟩ (by decide) (.cons (d := 6) ⟨by decide, .inl rfl⟩ (by decide) .nil))
    (by decide) (by decide) (by decide)

theorem num128 : NumText (ascii "0x80") 128 := by
  rw [show ascii "0x80" = [48, 120, 56, 48] by decide +kernel]
  exact
  .hex (.inl rfl) (.cons (d := 8) ⟨by decide, .inl rfl⟩ (by decide) (.cons (d := 0) ⟨by decide, .inl rfl⟩ (by decide) .nil))
    (by decide) (by decide)

theorem strEth0 : StrText (34 :: (ascii "eth0" ++ [34])) (ascii "eth0") :=
  .quoted (q := ascii "eth0") (.plain (by decide) (by decide) (by decide) (by decide)
    (.plain (by decide) (by decide) (by decide) (by decide) (.plain (by decide) (by decide) (by decide) (by decide)
      (.plain (by decide) (by decide) (by decide) (by decide) .nil)))) (by decide)

theorem rule_text : Clauses (FText L) rule ruleText :=
  .cons (gap (by decide)) (.ip (gap (by decide)) (word (by decide)) netText10)
    (.cons (gap (by decide)) (.ge (gap (by decide)) num16 (by decide))
      (.cons (gap (by decide)) (.ifname (gap (by decide)) strEth0)
        (.cons (gap (by decide)) (.metric (gap (by decide)) num128 (by decide) (by decide)) .nil)))

theorem rule_agree : Agree rule := by
  intro c hc d hd a b h1 h2
  simp only [rule, List.mem_cons, List.not_mem_nil, or_false] at hc hd
  rcases hc with rfl | rfl | rfl | rfl <;> rcases hd with rfl | rfl | rfl | rfl <;> simp_all [FClause.af]

theorem rule_range : InRange rule := by
  intro c hc n h
  rw [show ruleFamily rule = some .v4 from rfl]
  simp only [rule, List.mem_cons, List.not_mem_nil, or_false] at hc
  rcases hc with rfl | rfl | rfl | rfl <;> simp_all [FClause.length] <;> omega

theorem eol : Ends (ascii " # comment\n") [] :=
  ⟨ascii " ", ascii "# comment", by unfold BlankC; decide, .inr ⟨ascii " comment", by decide +kernel, by decide⟩,
    .inl (by decide +kernel)⟩

theorem nl (u : Bytes) : Ends [10] u := ⟨[], [], by simp, .inl rfl, .inl rfl⟩

/-- `interface eth0 rxcost 96` -/
def ifLine : List IClause := [.set .cost 96]
/-- `default unicast true` -/
def defLine : List IClause := [.set .unicast 2]

def lines : List CLine := [.filter .inp rule, .interface (ascii "eth0") ifLine, .default defLine]

def ifText : Bytes := ascii " " ++ ((ascii "rxcost" ++ (ascii " " ++ ascii "96")) ++ [])
def defText : Bytes := ascii " " ++ ((ascii "unicast" ++ (ascii " " ++ ascii "true")) ++ [])

def text : Bytes := ascii "in ip 10.0.0.0/8 ge 16  if \"eth0\" metric 0x80\ninterface eth0 rxcost 96\ndefault unicast true\n"

theorem text_eq : text = ([] ++ (ascii "in" ++ ruleText)) ++ ([10] ++
    (([] ++ (ascii "interface" ++ (ascii " " ++ (ascii "eth0" ++ ifText)))) ++ ([10] ++
    (([] ++ (ascii "default" ++ defText)) ++ ([10] ++ []))))) := by decide +kernel

theorem file : FileText L (fun _ => False) lines text := by
  rw [text_eq]
  refine .cons (.filter (c := .inp) (by simp) rule_text) (nl _) ⟨rule_agree, rule_range⟩ (by simp)
    (.cons (.interface (by simp) (gap (by decide)) (.bare (word (by decide)))
      (.cons (gap (by decide)) (.num (kw := "rxcost") (hi := 65535) (by decide) (gap (by decide)) num96 (by decide) (by decide)) .nil))
      (nl _) ?_ (by simp)
      (.cons (.default (by simp)
        (.cons (gap (by decide)) (.bool (kw := "unicast") (by decide) (gap (by decide)) .true) .nil)) (nl _) ?_ (by simp) .nil))
  · intro id hid; simp [ifLine] at hid
  · intro id hid; simp [defLine] at hid

theorem files : FilesText L (fun _ => False) lines [text] := by
  have := FilesText.cons (ys := []) (ts := []) file .nil
  simpa using this

/-- A route to 10.1.0.0/16 from eth0. -/
def q : FArgs := ⟨none, [0, 0, 0, 0, 0, 0, 0, 0, 0, 0, 255, 255, 10, 1, 0, 0], 112, List.replicate 16 0, 0, none, 2, 0⟩

/-- Whether a rule matches a route; `none` if the text is not accepted. -/
def accepts (t : Bytes) (q : FArgs) : Option Bool :=
  match parseFilter L t with
  | .ok (f, _) => some (filterMatch f q)
  | .error _ => none

end DemoConf

/-! ### C41: filters -/

/-- A rule written with any white space and followed by any comment is accepted; it matches exactly
the routes that meet all its conditions, and does what it says. -/
theorem C41_rule (L : Libc) (hL : LibcOk L) (r : List FClause) (t e rest : Bytes)
    (h : Clauses (FText L) r t) (he : Ends e rest) (ha : Agree r) (hr : InRange r) :
    ∃ f, parseFilter L (t ++ (e ++ rest)) = .ok (f, rest) ∧
      (∀ q, ArgsOk q → (filterMatch f q = true ↔ Matches L r q)) ∧ f.action = ruleAction r := by
  refine ⟨_, parseFilter_text hL h he ha, fun q hq => ?_, rule_action (L := L) r⟩
  obtain ⟨h1, h2, h3⟩ := ruleOk_text hL h hr
  exact rule_matches (L := L) r hL h1 q hq h2 h3

example := C41_rule DemoConf.L DemoConf.libcOk DemoConf.rule DemoConf.ruleText (ascii " # comment\n") [] DemoConf.rule_text
  DemoConf.eol DemoConf.rule_agree DemoConf.rule_range

example : DemoConf.accepts (DemoConf.ruleText ++ ascii " # comment\n") DemoConf.q = some true ∧
    DemoConf.accepts (DemoConf.ruleText ++ ascii " # comment\n") { DemoConf.q with plen := 110 } = some false := by
  decide +kernel

/-- A rule that mixes IPv4 and IPv6 addresses is rejected. -/
theorem C41_families (L : Libc) (hL : LibcOk L) (r : List FClause) (t e rest : Bytes)
    (h : Clauses (FText L) r t) (he : Ends e rest) (ha : ¬ Agree r) :
    parseFilter L (t ++ (e ++ rest)) = .error .bad := parseFilter_bad hL h he ha

example : parseFilter DemoConf.L (ascii " ip 10.0.0.0/8 src-ip 2001:db8::/32\n") = .error .bad := by decide +kernel

/-- After start-up, the outcome of each of the four filters is that of the first matching rule of
the configuration files, and the default if none matches.  This remains so whatever is received on
control connections, and whenever interface indices change. -/
theorem C41_filters (L : Libc) (hL : LibcOk L) (ls : List CLine) (ts : List Bytes)
    (h : FilesText L (fun _ => False) ls ts) :
    ∃ s, parseFiles L {} ts = (s, .ok ()) ∧ ∀ names (evs : List ConfEv),
      FiltersFollow (evs.foldl confStep (L, addNamed (finalise s) names)).1 ls
        (evs.foldl confStep (L, addNamed (finalise s) names)).2 := by
  obtain ⟨s, e, hm⟩ := parseFiles_text hL h [] {} (Meaning.start L) (by simp)
  rw [List.nil_append] at hm
  refine ⟨s, e, fun names evs => ?_⟩
  obtain ⟨f1, f2, f3, f4, f5, f6, f7, f8, f9⟩ := addNamed_frame names (finalise s)
  have e := finalise_eq hm
  refine follow_step hL (fun c r hr => h.rules hL hr) ?_ ?_ ?_ ?_ ?_ evs
  · rw [f1, e]; exact hm.input
  · rw [f2, e]; exact hm.output
  · rw [f3, e, ← hm.redist]
  · rw [f4, e, ← hm.install]
  · rw [f9, e]

example : ∃ s, parseFiles DemoConf.L {} [DemoConf.text] = (s, .ok ()) ∧
    FiltersFollow DemoConf.L DemoConf.lines (finalise s) := by
  obtain ⟨s, h1, h2⟩ := C41_filters _ DemoConf.libcOk _ _ DemoConf.files
  have h3 := h2 [] []
  rw [List.foldl_nil] at h3
  exact ⟨s, h1, h3⟩

example : (match parseFiles DemoConf.L {} [ascii "in if eth0 metric 128\n"] with
    | (s, .ok _) => [inputFilter (finalise s).input none DemoConf.q.dst 112 DemoConf.q.src 0 none 2,
        inputFilter (finalise s).input none DemoConf.q.dst 112 DemoConf.q.src 0 none 3]
    | _ => []) = [128, 0] := by decide +kernel

/-! ### C43: prefix lengths -/

/-- `ge g` and `le l` after a prefix: the prefixes inside it with a length, as written for the
family, between `g` and `l`. -/
theorem C43_range (L : Libc) (hL : LibcOk L) (w p g1 g2 g3 wg wl e rest : Bytes) (n g l : Nat) (af : Af)
    (hw : Word w) (hp : NetText L w p n af) (h1 : Gap g1) (h2 : Gap g2) (h3 : Gap g3)
    (hg : NumText wg g) (hl : NumText wl l) (he : Ends e rest)
    (bg : g ≤ (if af = .v4 then 32 else 128)) (bl : l ≤ (if af = .v4 then 32 else 128)) :
    ∃ f, parseFilter L ((g1 ++ (ascii "ip" ++ (g1 ++ w) ++ (g2 ++ (ascii "ge" ++ (g2 ++ wg) ++
        (g3 ++ (ascii "le" ++ (g3 ++ wl) ++ [])))))) ++ (e ++ rest)) = .ok (f, rest) ∧
      ∀ q, ArgsOk q → q.proto = 0 → (filterMatch f q = true ↔
        (af = .v4 ↔ IsV4 q.dst q.plen) ∧ n ≤ q.plen ∧ SameBits n q.dst p ∧
        g ≤ written (some af) q.plen ∧ written (some af) q.plen ≤ l) := by
  have hc : Clauses (FText L) [.ip p n af, .ge g, .le l] (g1 ++ (ascii "ip" ++ (g1 ++ w) ++ (g2 ++ (ascii "ge" ++ (g2 ++ wg) ++
        (g3 ++ (ascii "le" ++ (g3 ++ wl) ++ [])))))) :=
    .cons h1 (.ip h1 hw hp) (.cons h2 (.ge h2 hg (by split at bg <;> omega))
      (.cons h3 (.le h3 hl (by split at bl <;> omega)) .nil))
  have hfam : ruleFamily [.ip p n af, .ge g, .le l] = some af := rfl
  have ha : Agree [.ip p n af, .ge g, .le l] := by
    intro c hc d hd a b e1 e2
    simp only [List.mem_cons, List.not_mem_nil, or_false] at hc hd
    rcases hc with rfl | rfl | rfl <;> rcases hd with rfl | rfl | rfl <;> simp_all [FClause.af]
  have hr : InRange [.ip p n af, .ge g, .le l] := by
    intro c hc m e1
    rw [hfam]
    simp only [List.mem_cons, List.not_mem_nil, or_false] at hc
    rcases hc with rfl | rfl | rfl
    · simp [FClause.length] at e1
    · simp only [FClause.length, Option.some.injEq] at e1
      subst e1; simpa using bg
    · simp only [FClause.length, Option.some.injEq] at e1
      subst e1; simpa using bl
  obtain ⟨f, e1, e2, e3⟩ := C41_rule L hL _ _ e rest hc he ha hr
  refine ⟨f, e1, fun q hq hq0 => ?_⟩
  rw [e2 q hq]
  constructor
  · intro m
    have m1 := m.family af hfam
    have m2 := m.ip p n (by rfl)
    have m3 := m.ge g (by simp)
    have m4 := m.le l (by simp)
    rw [hfam] at m3 m4
    exact ⟨m1, m2.1, m2.2, m3, m4⟩
  · rintro ⟨m1, m2, m3, m4, m5⟩
    have nil : ∀ {β : Type} (sel : FClause → Option β), (sel (.ip p n af) = none) → (sel (.ge g) = none) → (sel (.le l) = none) →
        lastOf sel [.ip p n af, .ge g, .le l] = none := by
      intro β sel s1 s2 s3
      simp [lastOf, s1, s2, s3]
    refine ⟨fun a h => ?_, fun p' n' h => ?_, fun p' n' h => ?_, fun k h => ?_, fun k h => ?_, fun k h => ?_, fun k h => ?_,
      fun k h => ?_, fun k h => ?_, fun a h => ?_, fun a h => ?_, fun a h => ?_, ?_⟩
    · rw [hfam] at h; cases h; exact m1
    · have : lastOf FClause.dst? [.ip p n af, .ge g, .le l] = some (p, n) := rfl
      rw [this] at h; cases h; exact ⟨m2, m3⟩
    · rw [nil FClause.src? rfl rfl rfl] at h; cases h
    · simp at h
    · rw [hfam]
      simp only [List.mem_cons, reduceCtorEq, FClause.le.injEq, List.not_mem_nil, or_false, false_or] at h
      subst h; exact m5
    · rw [hfam]
      simp only [List.mem_cons, reduceCtorEq, FClause.ge.injEq, List.not_mem_nil, or_false, false_or] at h
      subst h; exact m4
    · simp at h
    · simp at h
    · simp at h
    · rw [nil FClause.neigh? rfl rfl rfl] at h; cases h
    · rw [nil FClause.id? rfl rfl rfl] at h; cases h
    · rw [nil FClause.ifname? rfl rfl rfl] at h; cases h
    · rw [nil FClause.proto? rfl rfl rfl]
      simp [hq0]

example := C43_range DemoConf.L DemoConf.libcOk (ascii "10.0.0.0/8") DemoConf.net10 [32] [32] [32] (ascii "16") (ascii "16")
  [10] [] 104 16 16 .v4 (DemoConf.word (by decide)) DemoConf.netText10 (DemoConf.gap (by decide)) (DemoConf.gap (by decide))
  (DemoConf.gap (by decide)) DemoConf.num16 DemoConf.num16 (DemoConf.nl _) (by decide) (by decide)

/-- Outside the range of the family the conditions do not mean what is written: in an IPv4 rule,
`ge 200` accepts a /16 (200 + 96 is stored in 8 bits), `le -1` does not reject it, and `ge 256`
accepts every length; without an address, `le 24` only ever matches IPv6 prefixes. -/
theorem C43_outside :
    DemoConf.accepts (ascii " ip 0.0.0.0/0 ge 200\n") DemoConf.q = some true ∧
    DemoConf.accepts (ascii " ip 0.0.0.0/0 le -1\n") DemoConf.q = some true ∧
    DemoConf.accepts (ascii " ip 0.0.0.0/0 ge 256\n") DemoConf.q = some true ∧
    DemoConf.accepts (ascii " le 24\n") DemoConf.q = some false := by
  decide +kernel

/-! ### C44: interfaces -/

/-- Merging keeps what `a` sets and takes the rest from `b`; the name stays. -/
theorem C44_merge (d a b : IfConf) :
    (∀ f : Field, f.get (mergeIfconf d a b) = if f.get a ≠ 0 then f.get a else f.get b) ∧
    (mergeIfconf d a b).key = (if a.key ≠ none then a.key else b.key) ∧ (mergeIfconf d a b).name = d.name := by
  refine ⟨fun f => merge_get f d a b, rfl, rfl⟩

example : (mergeIfconf { name := ascii "eth0" } { cost := 96, unicast := 1 } { cost := 256, unicast := 2, lq := 2 }) =
    { name := ascii "eth0", cost := 96, unicast := 1, lq := 2 } := by decide

/-- After start-up, the interfaces are those of the `interface` lines and those given on the
command line; each has the values given by its own lines and, where these give none, those of the
`default` lines. -/
theorem C44_startup (L : Libc) (hL : LibcOk L) (ls : List CLine) (ts : List Bytes)
    (h : FilesText L (fun _ => False) ls ts) :
    ∃ s, parseFiles L {} ts = (s, .ok ()) ∧ ∀ names n,
      (n ∈ (addNamed (finalise s) names).ifs.map (·.1) ↔ n ∈ names ∨ ls.filterMap (CLine.interface? n) ≠ []) ∧
      (∀ i, (addNamed (finalise s) names).ifConf n = some i → IfFollows ls n i) ∧
      (n ∈ (addNamed (finalise s) names).ifs.map (·.1) → (addNamed (finalise s) names).ifConf n = none →
        ls.filterMap (CLine.interface? n) = [] ∧ ls.filterMap CLine.default? = []) := by
  obtain ⟨s, e, hm⟩ := parseFiles_text hL h [] {} (Meaning.start L) (by simp)
  rw [List.nil_append] at hm
  refine ⟨s, e, fun names n => ?_⟩
  have ef := finalise_eq hm
  have hdef : (addNamed (finalise s) names).defaults = s.defaults := by
    rw [(addNamed_frame names (finalise s)).2.2.2.2.1, ef]
  have hdef' : (finalise s).defaults = s.defaults := by rw [ef]
  have hfind := addNamed_find names (finalise s) n
  rw [hdef'] at hfind
  have hifs : (finalise s).ifs = s.ifconfs.map fun i => (i.name, ConfRef.own (mergedConf s i)) := by rw [ef]
  rw [hifs] at hfind
  have hmem : ∀ l : List (Bytes × ConfRef), n ∈ l.map (·.1) ↔ (l.find? (·.1 == n)).isSome = true := by
    intro l
    rw [List.find?_isSome]
    simp
  rw [hmem, hfind]
  unfold Conf.ifConf
  rw [hfind, hdef]
  by_cases hn : ls.filterMap (CLine.interface? n) = []
  · have hnot : n ∉ s.ifconfs.map (·.name) := fun hc => (hm.noIf n).1 hc hn
    have e1 : (s.ifconfs.map fun i => (i.name, ConfRef.own (mergedConf s i))).find? (·.1 == n) = none := by
      rw [List.find?_eq_none]
      intro x hx he
      rw [List.mem_map] at hx
      obtain ⟨i, hi, rfl⟩ := hx
      exact hnot (List.mem_map.2 ⟨i, hi, by simpa using he⟩)
    rw [e1]
    by_cases hnn : n ∈ names
    · rcases hd : s.defaults with _ | d
      · refine ⟨by simp [hnn], by simp [hnn], fun _ _ => ⟨hn, hm.noDefault.1 hd⟩⟩
      · refine ⟨by simp [hnn], fun i hi => ?_, by simp [hnn]⟩
        simp only [hnn, if_true, Option.isSome_some, Option.none_or, Option.some.injEq] at hi
        subst hi
        obtain ⟨g1, g2⟩ := hm.default d hd
        unfold IfFollows
        rw [hn]
        refine ⟨fun f => by rw [g1]; simp [setBy, lastOf], by rw [g2]; simp [keyBy, lastOf]⟩
    · simp [hnn, hn]
  · have hin := (hm.noIf n).2 hn
    rw [List.mem_map] at hin
    obtain ⟨i, hi, rfl⟩ := hin
    have e1 := find_own (s := s) (mergedConf s) hi hm.nodup
    rw [e1]
    refine ⟨by simp [hn], fun j hj => ?_, by simp⟩
    simp only [Option.some_or, Option.some.injEq] at hj
    subst hj
    exact merged_follows hm hi

example : (match parseFiles DemoConf.L {} [DemoConf.text] with
    | (s, .ok _) => ((addNamed (finalise s) [ascii "eth0", ascii "wlan0"]).ifConf (ascii "eth0"),
        (addNamed (finalise s) [ascii "eth0", ascii "wlan0"]).ifConf (ascii "wlan0"))
    | _ => (none, none)) =
    (some { name := ascii "eth0", cost := 96, unicast := 2 }, some { unicast := 2 }) := by decide +kernel

/-- A line for an interface that does not exist yet, received on a control connection that may
write: the interface is created with the values of the line alone. -/
theorem C44_runtime (L : Libc) (s : Conf) (hs : s.final = true) (hw : s.opts.localWrite = true)
    (name : Bytes) (l : List IClause) (t e : Bytes) (h : LineText L (.interface name l) t) (he : Ends e [])
    (hk : ∀ id, .key id ∈ l → s.keys.any (·.id == id) = true)
    (hn : name ∉ s.ifs.map (·.1)) (hc : name ∉ s.ifconfs.map (·.name)) :
    ∃ s' i, parseString L s (t ++ e) = (s', .ok .done) ∧ s'.ifs.map (·.1) = s.ifs.map (·.1) ++ [name] ∧
      s'.ifConf name = some i ∧ i.name = name ∧ (∀ f : Field, f.get i = setIn f l) ∧ i.key = keyIn l ∧
      (∀ m, m ≠ name → s'.ifConf m = s.ifConf m) := by
  have e1 := parseString_interface hs hw h he hk
  refine ⟨_, l.foldl clausePut { name := name }, e1, ?_⟩
  have hname : (l.foldl clausePut ({ name := name } : IfConf)).name = name := foldl_clausePut_name _ _
  have hany : s.ifconfs.any (·.name == name) = false := by
    rw [Bool.eq_false_iff]
    intro hx
    rw [List.any_eq_true] at hx
    obtain ⟨x, hx, hxe⟩ := hx
    exact hc (List.mem_map.2 ⟨x, hx, by simpa using hxe⟩)
  have hany2 : s.ifs.any (·.1 == name) = false := by
    rw [Bool.eq_false_iff]
    intro hx
    rw [List.any_eq_true] at hx
    obtain ⟨x, hx, hxe⟩ := hx
    exact hn (List.mem_map.2 ⟨x, hx, by simpa using hxe⟩)
  have e2 : addIfconf s (l.foldl clausePut { name := name }) = { s with
      ifconfs := s.ifconfs ++ [l.foldl clausePut { name := name }], ifs := s.ifs ++ [(name, .entry)] } := by
    unfold addIfconf addInterface
    simp only [hname, hany, hs, hany2, Bool.false_eq_true, if_false, if_true]
  rw [e2]
  have f1 : s.ifs.find? (·.1 == name) = none := by
    rw [List.find?_eq_none]
    intro x hx hxe
    exact hn (List.mem_map.2 ⟨x, hx, by simpa using hxe⟩)
  have f2 : s.ifconfs.find? (·.name == name) = none := by
    rw [List.find?_eq_none]
    intro x hx hxe
    exact hc (List.mem_map.2 ⟨x, hx, by simpa using hxe⟩)
  refine ⟨by simp, ?_, hname, fun f => get_line name f l, ?_, fun m hm => ?_⟩
  · unfold Conf.ifConf
    simp only [List.find?_append, f1, Option.none_or]
    simp [f2, hname]
  · rw [foldl_clausePut_key]; simp [keyIn]
  · unfold Conf.ifConf
    have g1 : (s.ifs ++ [(name, ConfRef.entry)]).find? (·.1 == m) = s.ifs.find? (·.1 == m) := by
      rw [List.find?_append]
      simp [Ne.symm hm]
    have g2 : (s.ifconfs ++ [l.foldl clausePut { name := name }]).find? (·.name == m) = s.ifconfs.find? (·.name == m) := by
      rw [List.find?_append]
      simp [hname, Ne.symm hm]
    simp only [g1, g2]

example : ((parseString DemoConf.L { final := true, opts := { localWrite := true }, defaults := some { lq := 2 } }
      (ascii "interface eth0 rxcost 96\n")).1.ifConf (ascii "eth0")) = some { name := ascii "eth0", cost := 96 } := by
  decide +kernel

/-- Not so for an interface given in a configuration file: the values of the line are ignored,
although the line is accepted. -/
theorem C44_ignored :
    (match parseFiles DemoConf.L {} [ascii "local-port-readwrite 33123\ninterface eth0 rxcost 96\n"] with
    | (s, .ok _) =>
      (match parseString DemoConf.L (finalise s) (ascii "interface eth0 rxcost 128\n") with
      | (s', r) => (r, (s'.ifConf (ascii "eth0")).map (·.cost)))
    | _ => (.error .bad, none)) = (.ok .done, some 96) := by decide +kernel

/-! ### C51: the configuration language -/

/-- Options and keys after the configuration files have been read: options take effect in order,
and a key is the last one defined with its identifier. -/
theorem C51_meaning (L : Libc) (hL : LibcOk L) (ls : List CLine) (ts : List Bytes)
    (h : FilesText L (fun _ => False) ls ts) :
    ∃ s, parseFiles L {} ts = (s, .ok ()) ∧
      (finalise s).opts = (ls.filterMap CLine.option?).foldl (fun o f => f o) {} ∧
      (∀ id, (finalise s).keys.find? (·.id == id) = keyNamed id ls) ∧ (finalise s).final = true := by
  obtain ⟨s, e, hm⟩ := parseFiles_text hL h [] {} (Meaning.start L) (by simp)
  rw [List.nil_append] at hm
  have ef := finalise_eq hm
  exact ⟨s, e, by rw [ef]; exact hm.opts, fun id => by rw [ef]; exact hm.keys id, by rw [ef]⟩

example : (match parseFiles DemoConf.L {} [ascii "key id k type blake2s128 value 0102\n", ascii "debug 2\nkey value 03 type blake2s128 id k"] with
    | (s, .ok _) => (s.opts.debug, s.keys)
    | _ => (0, [])) = (2, [⟨ascii "k", 2, [3]⟩]) := by decide +kernel

/-- Whatever the text, reading a line ends, with success or an error; when it succeeds, at least
one character has been consumed.  Memory is freed twice only in lines whose first word is
`interface` or `default`. -/
theorem C51_line (L : Libc) (b : Bool) (s : Conf) (inp : Bytes) (h : inp ≠ []) :
    (∀ a r, (parseLine L b s inp).2 = .ok (a, r) → r.length < inp.length) ∧
    (∀ x, (parseLine L b s inp).2 = .error x → x = .bad ∨ x = .doubleFree ∧
      ∃ r, getword inp = .ok (ascii "interface", r) ∨ getword inp = .ok (ascii "default", r)) := by
  have := safe_parseLine L b s inp h
  have hw : getword (skipWs inp) = getword inp := by
    unfold getword
    have : skipWs (skipWs inp) = skipWs inp := by
      unfold skipWs
      induction inp with
      | nil => rfl
      | cons c inp ih =>
        by_cases hc : isWs c = true
        · simp only [List.dropWhile_cons, hc, if_true]
          by_cases hi : inp = []
          · subst hi; rfl
          · exact ih hi (safe_parseLine L b s inp hi)
        · simp [List.dropWhile_cons, hc]
    rw [this]
  refine ⟨fun a r e => ?_, fun x e => ?_⟩
  · rw [e] at this; exact this
  · rw [e] at this
    rcases this with h | ⟨h, r, hr⟩
    · exact .inl h
    · rw [hw] at hr
      exact .inr ⟨h, r, hr⟩

example : (parseLine DemoConf.L false {} (ascii "\n\n")).2 = .ok (.done, ascii "\n") ∧
    (parseLine DemoConf.L false {} (ascii "in frobnicate\n")).2 = .error .bad := by decide +kernel

/-- Reading a file ends. -/
theorem C51_file (L : Libc) (s : Conf) (text : Bytes) : (parseFile L s text).2 ≠ .error .stuck :=
  parseFile_notStuck L s text

/-- The manual says that these values may be 0; the parser refuses this. -/
theorem C51_zero_refused :
    (parseLine DemoConf.L false {} (ascii "kernel-check-interval 0\n")).2 = .error .bad ∧
    (parseLine DemoConf.L false {} (ascii "shutdown-delay-ms 0\n")).2 = .error .bad ∧
    (parseLine DemoConf.L false {} (ascii "kernel-check-interval 1\n")).2 = .ok (.done, []) := by
  decide +kernel

/-- Memory is freed twice when a word cannot be read after the first keyword of an interface
configuration. -/
theorem C51_double_free :
    (parseLine DemoConf.L false {} (ascii "interface eth0 rxcost 96 \"x\n")).2 = .error .doubleFree ∧
    (parseLine DemoConf.L false {} (ascii "default unicast true \"\n")).2 = .error .doubleFree := by
  decide +kernel

/-! ### C52: control connections -/

/-- While the daemon runs, a control connection without write permission changes nothing. -/
theorem C52_readonly (L : Libc) (s : Conf) (hs : s.final = true) (hw : s.opts.localWrite = false) (text : Bytes) :
    (parseString L s text).1 = s := parseString_readonly L s text hs hw

example : parseString DemoConf.L { final := true } (ascii "interface eth0\n") = ({ final := true }, .error .bad) := by
  decide +kernel

/-- Whatever is received, filters and options other than link detection, log file and smoothing
never change, and a connection that could not write still cannot. -/
theorem C52_fixed (L : Libc) (s : Conf) (hs : s.final = true) (texts : List Bytes) :
    Fixed s (texts.foldl (fun s t => (parseString L s t).1) s) := by
  suffices h : ∀ s', s'.final = true → Fixed s s' → Fixed s (texts.foldl (fun s t => (parseString L s t).1) s') from
    h s hs (Fixed.refl s)
  induction texts with
  | nil => intro s' _ h; exact h
  | cons t texts ih =>
    intro s' hs' h
    have f := parseString_fixed L s' t hs'
    exact ih _ (f.final.trans hs') (Fixed.trans h f)

example : ((parseString DemoConf.L { final := true, opts := { localWrite := true } } (ascii "link-detect true\n")).1.opts.linkDetect,
    (parseString DemoConf.L { final := true, opts := { localWrite := true } } (ascii "random-id true\n")).1.opts.randomId,
    (parseString DemoConf.L { final := true, opts := { localWrite := true } } (ascii "in deny\n")).1.input) =
    (true, false, []) := by decide +kernel

/-- `flush interface` removes the interface and nothing else. -/
theorem C52_flush (L : Libc) (s : Conf) (hs : s.final = true) (hw : s.opts.localWrite = true)
    (g1 g2 g3 name e : Bytes) (h1 : ∀ x ∈ g1, BlankC x) (h2 : Gap g2) (h3 : Gap g3) (hn : Word name) (he : Ends e [])
    (hd : (s.ifs.map (·.1)).Nodup) :
    ∃ s', parseString L s (g1 ++ (ascii "flush" ++ (g2 ++ (ascii "interface" ++ (g3 ++ (name ++ e)))))) =
        (s', .ok (if name ∈ s.ifs.map (·.1) then .done else .noSuchInterface)) ∧
      s'.ifs = s.ifs.filter (·.1 != name) ∧ (∀ m, m ≠ name → s'.ifConf m = s.ifConf m) := by
  refine ⟨(flushInterface s name).1, ?_, ?_⟩
  · rw [parseString_flush hs hw h1 h2 h3 hn he]
    congr 2
    unfold flushInterface
    rcases hf : s.ifs.find? (·.1 == name) with _ | ⟨n, r⟩
    · have : name ∉ s.ifs.map (·.1) := by
        intro hc
        rw [List.mem_map] at hc
        obtain ⟨x, hx, hxe⟩ := hc
        rw [List.find?_eq_none] at hf
        exact hf x hx (by simpa using hxe)
      simp only [hf, this, if_false, Bool.false_eq_true]
    · have h1 := List.mem_of_find?_eq_some hf
      have h2 := List.find?_some hf
      have : name ∈ s.ifs.map (·.1) := List.mem_map.2 ⟨_, h1, by simpa using h2⟩
      simp only [hf, this, if_true]
  · have herase : ∀ l : List (Bytes × ConfRef), (l.map (·.1)).Nodup → l.eraseP (·.1 == name) = l.filter (·.1 != name) := by
      intro l hl
      induction l with
      | nil => rfl
      | cons x l ih =>
        simp only [List.map_cons, List.nodup_cons] at hl
        by_cases hx : x.1 = name
        · have : l.filter (·.1 != name) = l := by
            rw [List.filter_eq_self]
            intro y hy
            simp only [bne_iff_ne, ne_eq]
            intro hye
            exact hl.1 (List.mem_map.2 ⟨y, hy, by rw [hye, hx]⟩)
          simp [hx, this]
        · simp [hx, ih hl.2]
    unfold flushInterface
    rcases hf : s.ifs.find? (·.1 == name) with _ | ⟨n, r⟩
    · simp only [hf]
      refine ⟨?_, fun m hm => trivial⟩
      symm
      rw [List.filter_eq_self]
      intro x hx
      rw [List.find?_eq_none] at hf
      simpa using hf x hx
    · simp only [hf]
      have hfind : ∀ m, m ≠ name → (s.ifs.eraseP (·.1 == name)).find? (·.1 == m) = s.ifs.find? (·.1 == m) := by
        intro m hm
        rw [herase s.ifs hd, List.find?_filter]
        congr 1
        funext x
        by_cases hx : x.1 = m
        · simp [hx, hm]
        · simp [hx]
      have hfind2 : ∀ (l : List IfConf) m, m ≠ name → (l.eraseP (·.name == name)).find? (·.name == m) = l.find? (·.name == m) := by
        intro l m hm
        induction l with
        | nil => rfl
        | cons x l ih =>
          by_cases hx : x.name = name
          · have : (x.name == m) = false := by rw [hx]; simpa using Ne.symm hm
            simp [hx, List.find?_cons, Ne.symm hm]
          · simp [hx, List.find?_cons, ih]
      split
      · refine ⟨herase _ hd, fun m hm => ?_⟩
        unfold Conf.ifConf
        simp only [hfind m hm, hfind2 _ m hm]
      · refine ⟨herase _ hd, fun m hm => ?_⟩
        unfold Conf.ifConf
        simp only [hfind m hm]

example : (parseString DemoConf.L { final := true, opts := { localWrite := true }, ifs := [(ascii "eth0", .none), (ascii "wlan0", .none)] }
      (ascii "flush interface eth0\n")).1.ifs = [(ascii "wlan0", .none)] := by
  decide +kernel

end Babel
