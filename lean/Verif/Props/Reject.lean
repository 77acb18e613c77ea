import Verif.Lemmas.Reject4
import Verif.Lemmas.Range
import Verif.Props.Config
/-
C51, C54: texts that are not in the configuration language are refused, and nothing that is read
can bring a value out of its range into the configuration.
-/
set_option linter.unusedSimpArgs false
set_option linter.unusedVariables false
namespace Babel
open Spec

/-- A configuration file with an unknown keyword, a missing, malformed or out-of-range value, an
unknown key, addresses of different families in one rule, an incomplete key, an unfinished string,
text after an option, or a command for control connections, is refused; the lines before may be
anything that is correct. -/
theorem C51_reject (L : Libc) (hL : LibcOk L) (t : Bytes) (h : BadFile L (fun _ => False) t) :
    (parseFile L {} t).2 = .error .bad := by
  unfold parseFile
  rw [if_neg (by simpa using badFile_ne h)]
  exact fileLoop_bad hL h _ _ rfl (by simp) (by omega)

/-- A correct line, then a rule with a prefix length that is too large. -/
example : BadFile DemoConf.L (fun _ => False)
    ((ascii "debug" ++ (ascii " " ++ ascii "1")) ++ ([10] ++ ([] ++ (ascii (Chain.word .inp) ++ ([] ++ (ascii " " ++
      (ascii "ip" ++ (ascii " " ++ ((ascii "10.0.0.0" ++ 47 :: ascii "33") ++ ascii " deny\n"))))))))) := by
  have gap : Gap (ascii " ") := by unfold Gap BlankC; decide
  have d3 : ∀ d, d < 10 → IsHex (UInt8.ofNat (48 + d)) d := by unfold IsHex; decide
  have n1 : NumText (ascii "1") 1 :=
    .dec (.cons (d := 1) (d3 1 (by decide)) (by decide) .nil) (by decide) (by decide) (by decide)
  have n33 : NumText (ascii "33") 33 :=
    .dec (.cons (d := 3) (d3 3 (by decide)) (by decide) (.cons (d := 3) (d3 3 (by decide)) (by decide) .nil))
      (by decide) (by decide) (by decide)
  refine .later (x := .option fun o => { o with debug := 1 }) (.option (g := []) (by simp) (.debug gap n1 (by decide)))
    ⟨[], [], by simp, .inl rfl, .inl rfl⟩ trivial (by simp) (.here (by simp) (.filter .nil gap ?_))
  refine .value (B := BadNet DemoConf.L) (by simp [filterArgs]) gap ?_ (.inr ⟨32, _, rfl, .inl (.inl rfl)⟩)
  exact .plen4 (by unfold Word BlankC; decide +kernel) (by decide +kernel)
    (.v4 (a := [10, 0, 0, 0]) (by decide +kernel)) (.range n33 (by decide) (.inr (by decide)))

example : (parseFile DemoConf.L {} (ascii "debug 1\nin ip 10.0.0.0/33 deny\n")).2 = .error .bad := by decide +kernel
example : (parseFile DemoConf.L {} (ascii "in metric 12x\n")).2 = .error .bad := by decide +kernel
example : (parseFile DemoConf.L {} (ascii "interface \"eth0\n\"")).2 = .error .bad := by decide +kernel

/-- The same for any number of correct files before. -/
theorem C51_reject_files (L : Libc) (hL : LibcOk L) (ls : List CLine) (ts : List Bytes) (t : Bytes) (more : List Bytes)
    (h : FilesText L (fun _ => False) ls ts) (hb : BadFile L (fun id => ∃ x ∈ ls, ∃ k, x.key? = some k ∧ k.id = id) t) :
    (parseFiles L {} (ts ++ t :: more)).2 = .error .bad := by
  obtain ⟨s, e, hm⟩ := parseFiles_text hL h [] {} (Meaning.start L) (by simp)
  rw [List.nil_append] at hm
  have happ : ∀ (ts : List Bytes) (s0 : Conf), parseFiles L s0 ts = (s, .ok ()) →
      parseFiles L s0 (ts ++ t :: more) = parseFiles L s (t :: more) := by
    intro ts
    induction ts with
    | nil =>
      intro s0 h
      have : s0 = s := congrArg Prod.fst h
      rw [this]
      rfl
    | cons u us ih =>
      intro s0 h
      rw [List.cons_append]
      unfold parseFiles at h ⊢
      rcases hx : parseFile L s0 u with ⟨s1, e1 | ⟨⟩⟩
      · rw [hx] at h; simp at h
      · rw [hx] at h
        exact ih _ h
  rw [happ ts {} e]
  have hb2 : (parseFile L s t).2 = .error .bad := by
    unfold parseFile
    rw [if_neg (by simpa using badFile_ne hb)]
    refine fileLoop_bad hL hb _ _ hm.final ?_ (by omega)
    intro id
    rw [List.any_eq_true, ← List.find?_isSome, hm.keys id]
    constructor
    · rintro ⟨x, hx, k, hk, rfl⟩
      unfold Spec.keyNamed lastOf
      rw [Option.isSome_iff_ne_none]
      intro hn
      rw [List.getLast?_eq_none_iff, List.filterMap_eq_nil_iff] at hn
      have := hn x hx
      rw [hk] at this
      simp at this
    · intro hn
      obtain ⟨k, hk⟩ := Option.isSome_iff_exists.1 hn
      obtain ⟨x, hx, hk⟩ := lastOf_mem hk
      rw [Option.filter_eq_some_iff] at hk
      exact ⟨x, hx, k, hk.1, by simpa using hk.2⟩
  unfold parseFiles
  rcases hx : parseFile L s t with ⟨s1, x⟩
  rw [hx] at hb2
  simp only at hb2
  subst hb2
  rfl

/-- Whatever is read, all values of the configuration stay in their ranges, keys have a length that
suits their type, and interfaces refer only to keys that exist. -/
theorem C54_ranges (L : Libc) (hL : LibcOk L) (s : Conf) (h : Configured L s) : ConfRange s := by
  induction h with
  | start => exact confRange_start
  | files _ ih => exact parseFiles_range hL _ ih
  | line _ ih => exact parseString_range hL ih _
  | finalise _ ih => exact finalise_range ih
  | names _ ih => exact addNamed_range ih _
  | renumber L' _ ih => exact renumber_range ih L'

/-- What an interface gets is in range too. -/
theorem C54_interface (L : Libc) (hL : LibcOk L) (s : Conf) (h : Configured L s) (name : Bytes) (i : IfConf)
    (hi : s.ifConf name = some i) : IfRange s.keys i := by
  have hr := C54_ranges L hL s h
  unfold Conf.ifConf at hi
  split at hi
  · rename_i x hx
    cases hi
    exact hr.own _ _ (List.mem_of_find?_eq_some hx)
  · exact hr.ifconfs _ (List.mem_of_find?_eq_some hi)
  · exact hr.defaults _ hi
  · cases hi

/-- A file whose second line is refused, then a line over a control connection that is accepted. -/
example : Configured DemoConf.L (parseString DemoConf.L (finalise (parseFiles DemoConf.L {}
    [ascii "interface eth0 rxcost 256\nlocal-port-readwrite 33123\n", ascii "interface eth1 rxcost 65536\n"]).1)
    (ascii "interface eth2 rxcost 65535\n")).1 := .line (.finalise (.files .start))
example : ((parseString DemoConf.L (finalise (parseFiles DemoConf.L {}
    [ascii "interface eth0 rxcost 256\nlocal-port-readwrite 33123\n", ascii "interface eth1 rxcost 65536\n"]).1)
    (ascii "interface eth2 rxcost 65535\n")).1.ifConf (ascii "eth2")).map (·.cost) = some 65535 := by decide +kernel
example : (parseFiles DemoConf.L {} [ascii "interface eth0 rxcost 256\n", ascii "interface eth1 rxcost 65536\n"]).1.ifconfs.map
    (fun i => (i.name, i.cost)) = [(ascii "eth0", 256)] := by decide +kernel

end Babel
