import Verif.Lemmas.Main2
import Verif.Props.Config
import Verif.Lemmas.Restart
/-
C77: the command line.
-/
set_option linter.unusedSimpArgs false
set_option linter.unusedVariables false
namespace Babel
open Spec

namespace DemoMain

/-- The byte of a letter. -/
def b (c : Char) : UInt8 := UInt8.ofNat c.toNat

/-- `babeld -sl -p1234 -T 0x10 -T 7 eth0 -h 2.5 -- -odd`. -/
def args : List Bytes := [ascii "-sl", ascii "-p1234", ascii "-T", ascii "0x10", ascii "-T", ascii "7", ascii "eth0", ascii "-h", ascii "2.5", ascii "--", ascii "-odd"]

def opts : List (UInt8 × Bytes) :=
  [(b 's', []), (b 'l', []), (b 'p', ascii "1234"), (b 'T', ascii "0x10"), (b 'T', ascii "7"), (b 'h', ascii "2.5")]

def ops : List Bytes := [ascii "eth0", ascii "-odd"]

/-- A host with one configuration file. -/
def env : FileEnv := ⟨DemoConf.L, fun f => if f = ascii "/etc/babeld.conf" then some (ascii "protocol-port 6000\n") else none, fun f => f == ascii "/etc/babeld.conf"⟩

end DemoMain

/-- C77.  The words of the command line are split into options, their arguments and operands as the manual of getopt describes; anything else is refused (see
`C77_bad`). -/
theorem C77_words (args : List Bytes) (opts : List (UInt8 × Bytes)) (ops : List Bytes) :
    lexArgs none args = (opts.map fun o => OptTok.opt o.1 o.2, ops) ↔ CommandLine args opts ops :=
  lex_iff args opts ops

example : CommandLine DemoMain.args DemoMain.opts DemoMain.ops := (C77_words _ _ _).1 (by decide +kernel)

/-- C77.  A command line that cannot be split this way (an unknown option, or an option without its argument) does not start the daemon. -/
theorem C77_bad (e : FileEnv) (args : List Bytes) (h : ∀ opts ops, ¬ CommandLine args opts ops) (st : Start) : startUp e args ≠ .ok st := by
  intro hs
  obtain ⟨m, s, h1, _⟩ := (startUp_iff e args st).1 hs
  rcases toks_or_bad (lexArgs none args).1 with ⟨opts, ho⟩ | hb
  · exact h opts (lexArgs none args).2 ((lex_iff _ _ _).1 (by rw [← ho]))
  · exact run_bad _ _ _ hb _ h1

example : ∀ opts ops, ¬ CommandLine [ascii "-s", ascii "-p"] opts ops := by
  intro opts ops h
  have := (C77_words _ _ _).2 h
  have e : lexArgs none [ascii "-s", ascii "-p"] = ([.opt (DemoMain.b 's') [], .bad], []) := by decide +kernel
  rw [e] at this
  have h2 : OptTok.bad ∈ opts.map fun o => OptTok.opt o.1 o.2 := by
    have := congrArg Prod.fst this
    show _ ∈ (List.map _ opts, ops).1
    rw [← this]
    simp
  obtain ⟨o, _, ho⟩ := List.mem_map.1 h2
  cases ho

/-- C77.  The numbers of the command line: a number in decimal, octal (after `0`) or hexadecimal (after `0x`), between blanks, at most 2147483647.  Everything else is
-1, which no option accepts.  An empty argument is 0. -/
theorem C77_numbers (a : Bytes) : (∀ n : Nat, parseNat a = n ↔ NatText a n ∧ n ≤ 2147483647) ∧
    (parseNat a = -1 ↔ ¬ ∃ n, NatText a n ∧ n ≤ 2147483647) := by
  refine ⟨parseNat_iff a, fun h => ?_, fun h => ?_⟩
  · rintro ⟨n, hn⟩
    have := (parseNat_iff a n).2 hn
    omega
  · have hr := parseNat_range a
    apply Classical.byContradiction
    intro hne
    refine h ⟨(parseNat a).toNat, (parseNat_iff a _).1 (by omega)⟩

example : parseNat (ascii " 0x10 ") = 16 ∧ parseNat (ascii "010") = 8 ∧ parseNat (ascii "10a") = -1 ∧ parseNat (ascii "2147483648") = -1 ∧ parseNat [] = 0 := by decide +kernel

/-- C77.  Options: every one must be acceptable, and there are at most ten imported tables; then the last of several equal options counts.  (`-C` is
`C77_statement`.) -/
theorem C77_options (L : Libc) (opts : List (UInt8 × Bytes)) (hC : ∀ o ∈ opts, letter o.1 ≠ 'C') (m : Cmd) :
    runOpts L {} (opts.map fun o => OptTok.opt o.1 o.2) = .ok m ↔ (∀ o ∈ opts, GoodOpt L o.1 o.2) ∧ (argsOf opts 'T').length ≤ 10 ∧ m = meaning L opts :=
  run_iff L _ opts rfl hC m

example : meaning DemoConf.L DemoMain.opts = { ({} : Cmd) with
    conf := { ({} : Cmd).conf with opts := { ({} : Cmd).conf.opts with protocolPort := 1234, linkDetect := true, importTables := [16, 7] } }, wireless := 2500, split := false } := by decide +kernel

example : runOpts DemoConf.L {} (DemoMain.opts.map fun o => OptTok.opt o.1 o.2) = .ok (meaning DemoConf.L DemoMain.opts) := by decide +kernel

/-- C77.  `-i` is among the options that the parser knows, but it is always refused. -/
theorem C77_no_i (e : FileEnv) (args : List Bytes) (opts : List (UInt8 × Bytes)) (ops : List Bytes) (h : CommandLine args opts ops) (a : Bytes)
    (hi : (105, a) ∈ opts) (st : Start) : startUp e args ≠ .ok st := by
  intro hs
  obtain ⟨m, s, h1, _⟩ := (startUp_iff e args st).1 hs
  rw [(lex_iff _ _ _).2 h] at h1
  obtain ⟨xs, ys, rfl⟩ := List.append_of_mem hi
  rw [List.map_append, runOpts_append] at h1
  obtain ⟨m1, _, h2⟩ := exceptBind_ok.1 h1
  rw [List.map_cons] at h2
  obtain ⟨m2, h3, _⟩ := exceptBind_ok.1 (show (applyOpt e.libc m1 105 a).bind _ = _ from h2)
  cases h3

example : CommandLine [ascii "-i", ascii "x"] [(105, ascii "x")] [] := (C77_words _ _ _).1 (by decide +kernel)

/-- C77.  A statement (`-C`) is read as a line of a configuration, on top of the options before it; the daemon does not start if it is wrong, or if it is one of the
commands of the control socket. -/
theorem C77_statement (L : Libc) (opts : List (UInt8 × Bytes)) (hC : ∀ o ∈ opts, letter o.1 ≠ 'C') (a : Bytes) (m : Cmd) :
    runOpts L {} ((opts ++ [(67, a)]).map fun o : UInt8 × Bytes => OptTok.opt o.1 o.2) = .ok m ↔ (∀ o ∈ opts, GoodOpt L o.1 o.2) ∧ (argsOf opts 'T').length ≤ 10 ∧
      (parseString L (meaning L opts).conf a).2 = .ok .done ∧ m = { meaning L opts with conf := (parseString L (meaning L opts).conf a).1 } := by
  rw [List.map_append, runOpts_append, exceptBind_ok]
  have one : ∀ m1, (runOpts L m1 ([(67, a)].map fun o : UInt8 × Bytes => OptTok.opt o.1 o.2) = .ok m ↔
      (parseString L m1.conf a).2 = .ok .done ∧ m = { m1 with conf := (parseString L m1.conf a).1 }) := by
    intro m1
    have e0 : runOpts L m1 ([(67, a)].map fun o : UInt8 × Bytes => OptTok.opt o.1 o.2) = applyOpt L m1 67 a := by
      show (applyOpt L m1 67 a).bind _ = _
      cases applyOpt L m1 67 a <;> rfl
    rw [e0]
    have e1 : applyOpt L m1 67 a = (match parseString L m1.conf a with
      | (s, .ok .done) => .ok { m1 with conf := s }
      | _ => .error .statement) := rfl
    rw [e1]
    rcases parseString L m1.conf a with ⟨s, _ | r⟩
    · exact ⟨nofun, fun h => by cases h.1⟩
    · cases r
      case done => exact ok_iff.trans ⟨fun e => ⟨rfl, e⟩, fun e => e.2⟩
      all_goals exact ⟨nofun, fun h => by cases h.1⟩
  constructor
  · rintro ⟨m1, h1, h2⟩
    obtain ⟨g1, g2, rfl⟩ := (C77_options L opts hC m1).1 h1
    exact ⟨g1, g2, (one _).1 h2⟩
  · rintro ⟨h1, h2, h3⟩
    exact ⟨meaning L opts, (C77_options L opts hC _).2 ⟨h1, h2, rfl⟩, (one _).2 h3⟩

example : (parseString DemoConf.L (meaning DemoConf.L DemoMain.opts).conf (ascii "redistribute metric 256")).2 = .ok .done := by decide +kernel

/-- C77.  Starting: the operands are the names of the interfaces; the configuration files are read in order after all the options, and add to them (so a setting of a file
wins over the same setting on the command line); without `-c`, the default file is read if it exists.  A daemon in the background always has a log file.  -/
theorem C77_start (e : FileEnv) (args : List Bytes) (opts : List (UInt8 × Bytes)) (ops : List Bytes) (h : CommandLine args opts ops)
    (hC : ∀ o ∈ opts, letter o.1 ≠ 'C') (st : Start) :
    startUp e args = .ok st ↔ (∀ o ∈ opts, GoodOpt e.libc o.1 o.2) ∧ (argsOf opts 'T').length ≤ 10 ∧
      ∃ texts s, (toRead e opts).map e.read = texts.map some ∧ parseFiles e.libc (meaning e.libc opts).conf texts = (s, .ok ()) ∧
        st.names = ops ∧ st.split = !has opts 's' ∧ st.allWireless = has opts 'w' ∧
        HelloInterval opts 'h' st.wireless ∧ HelloInterval opts 'H' st.wired ∧ ResendDelay st.wireless st.wired st.resendDelay ∧
        st.conf = { s with opts := { s.opts with logFile := s.opts.logFile.or (if s.opts.daemonise then some (ascii "/var/log/babeld.log") else none) } } := by
  rw [startUp_iff]
  have hf : filesOf e (argsOf opts 'c') = toRead e opts := by
    unfold filesOf toRead
    cases argsOf opts 'c' <;> rfl
  have hlog : ∀ s : Conf, (if s.opts.daemonise = true ∧ s.opts.logFile = none then { s with opts := { s.opts with logFile := some (ascii "/var/log/babeld.log") } } else s) =
      { s with opts := { s.opts with logFile := s.opts.logFile.or (if s.opts.daemonise then some (ascii "/var/log/babeld.log") else none) } } := by
    intro s
    obtain ⟨a1, a2, a3, a4, a5, a6, a7, o, a8, a9⟩ := s
    obtain ⟨b1, b2, b3, b4, b5, b6, b7, b8, b9, b10, b11, b12, b13, b14, b15, b16, b17, b18, b19, b20, b21, b22, b23⟩ := o
    cases b13 <;> cases b19 <;> rfl
  have hhello : (∀ o ∈ opts, GoodOpt e.libc o.1 o.2) → ∀ ch, (ch = 'h' ∨ ch = 'H') → ∀ v,
      (HelloInterval opts ch v ↔ v = helloDefault (((lastArg opts ch).map parseThousands).getD (-1))) := by
    intro hg ch hch v
    unfold HelloInterval helloDefault
    cases hl : lastArg opts ch with
    | none => exact Iff.rfl
    | some a =>
      simp only [Option.map_some, Option.getD_some]
      have hm : ∃ c, (c, a) ∈ opts ∧ letter c = ch := by
        unfold lastArg argsOf at hl
        obtain ⟨o, ho, rfl⟩ := List.mem_map.1 (List.mem_of_getLast? hl)
        obtain ⟨h1, h2⟩ := List.mem_filter.1 ho
        exact ⟨o.1, h1, by simpa using h2⟩
      obtain ⟨c, hc1, hc2⟩ := hm
      have hpos : 0 < parseThousands a := by
        have := hg _ hc1
        unfold GoodOpt at this
        rw [hc2] at this
        rcases hch with rfl | rfl <;> exact this.1
      rw [if_neg (by omega)]
      constructor
      · rintro ⟨h1, h2 | ⟨h2, h3⟩⟩ <;> omega
      · intro hv
        omega
  have hres : ∀ a b v : Int, 0 < a → 0 < b → (ResendDelay a b v ↔ v = resendDelayOf a b) := by
    intro a b v ha hb
    unfold ResendDelay resendDelayOf
    omega
  have hpos : ∀ v, 0 < helloDefault v := by
    intro v
    unfold helloDefault
    omega
  constructor
  · rintro ⟨m, s, h1, h2, rfl⟩
    rw [(lex_iff _ _ _).2 h] at h1
    obtain ⟨g1, g2, rfl⟩ := (C77_options e.libc opts hC m).1 h1
    obtain ⟨ts, g3, g4⟩ := (readFiles_iff e s _ _).1 h2
    refine ⟨g1, g2, ts, s, ?_, g4, ?_, rfl, rfl, (hhello g1 'h' (.inl rfl) _).2 rfl, (hhello g1 'H' (.inr rfl) _).2 rfl, (hres _ _ _ (hpos _) (hpos _)).2 rfl, hlog s⟩
    · rw [← hf]; exact g3
    · exact congrArg Prod.snd ((lex_iff _ _ _).2 h)
  · rintro ⟨g1, g2, ts, s, g3, g4, g5, g6, g7, g8, g9, g10, g11⟩
    refine ⟨meaning e.libc opts, s, ?_, ?_, ?_⟩
    · rw [(lex_iff _ _ _).2 h]; exact (C77_options e.libc opts hC _).2 ⟨g1, g2, rfl⟩
    · refine (readFiles_iff e s _ _).2 ⟨ts, ?_, g4⟩
      rw [← g3, ← hf]; rfl
    · have e1 := (hhello g1 'h' (.inl rfl) _).1 g8
      have e2 := (hhello g1 'H' (.inr rfl) _).1 g9
      have e3 := (hres _ _ _ (by rw [e1]; exact hpos _) (by rw [e2]; exact hpos _)).1 g10
      have e4 : (lexArgs none args).2 = ops := congrArg Prod.snd ((lex_iff _ _ _).2 h)
      rw [e4, hlog]
      obtain ⟨a1, a2, a3, a4, a5, a6, a7⟩ := st
      simp only at g5 g6 g7 e1 e2 e3 g11
      rw [e1, e2] at e3
      subst g5 g6 g7 e1 e2 e3 g11
      rfl

/-- The port of the file wins over `-p 1234`; 2.5 seconds, and half of that. -/
example : (match startUp DemoMain.env DemoMain.args with
    | .ok st => (st.names, st.conf.opts.protocolPort, st.conf.opts.importTables, st.wireless, st.wired, st.resendDelay, st.split)
    | .error _ => default) = (DemoMain.ops, 6000, [16, 7], 2500, 4000, 1250, false) := by decide +kernel

/-- C77.  The multicast group of `-m` must be a multicast address, but the same setting in a configuration file can be any address. -/
theorem C77_group_false : ¬ GoodOpt DemoConf.L 109 (ascii "10.0.0.0") ∧
    (parseFiles DemoConf.L {} [ascii "protocol-group 10.0.0.0\n"]).2 = .ok () ∧
    (parseFiles DemoConf.L {} [ascii "protocol-group 10.0.0.0\n"]).1.opts.group = [0, 0, 0, 0, 0, 0, 0, 0, 0, 0, 255, 255, 10, 0, 0, 0] := by
  refine ⟨?_, by decide +kernel, by decide +kernel⟩
  rintro ⟨x, f, h1, h2⟩
  have e : parseAddress DemoConf.L (ascii "10.0.0.0") = some ([0, 0, 0, 0, 0, 0, 0, 0, 0, 0, 255, 255, 10, 0, 0, 0], .v4) := by decide +kernel
  rw [e] at h1
  cases h1
  cases h2

/-- C77.  The pid file contains the number of the process in decimal.  If it exists already, cannot be created or cannot be written, the daemon does not start and no file
is changed or left behind.  An empty name means no file. -/
theorem C77_pid (pidfile : Bytes) (pid : Nat) (hp : pid < 10 ^ 20) (files : List (Bytes × Bytes)) (opens : Bool) (written : Nat) :
    ∃ t, (∀ c ∈ t, Digit c) ∧ decValue t = pid ∧ t.length ≤ 20 ∧
      (pidfile = [] → writePid pidfile pid files opens written = (.ok (), files)) ∧
      (pidfile ≠ [] → ((∃ old, (pidfile, old) ∈ files) ∨ opens = false ∨ written < t.length) → writePid pidfile pid files opens written = (.error .pid, files)) ∧
      (pidfile ≠ [] → (∀ old, (pidfile, old) ∉ files) → opens = true → t.length ≤ written → writePid pidfile pid files opens written = (.ok (), (pidfile, t) :: files)) := by
  refine ⟨decDigits 20 pid, fun c hc => ?_, decValue_decDigits 20 pid hp, decDigits_length 20 20 pid hp (by decide), fun h => ?_, fun h0 h => ?_, fun h0 h1 h2 h3 => ?_⟩
  · have := decDigits_mem 20 pid c hc
    exact this
  · subst h; rfl
  · have he : pidfile.isEmpty = false := by cases pidfile with
      | nil => exact absurd rfl h0
      | cons => rfl
    unfold writePid
    simp only [he, Bool.false_eq_true, if_false]
    split
    · rfl
    · next hn =>
      rw [if_pos]
      have hn := not_or.1 hn
      rcases h with ⟨old, ho⟩ | h | h
      · exact absurd (List.any_eq_true.2 ⟨_, ho, by simp⟩) hn.1
      · subst h; exact absurd rfl hn.2
      · exact h
  · have he : pidfile.isEmpty = false := by cases pidfile with
      | nil => exact absurd rfl h0
      | cons => rfl
    unfold writePid
    simp only [he, Bool.false_eq_true, if_false]
    rw [if_neg, if_neg (by omega)]
    rintro (h | h)
    · obtain ⟨x, hx, hx2⟩ := List.any_eq_true.1 h
      have : x.1 = pidfile := by simpa using hx2
      exact h1 x.2 (this ▸ hx)
    · subst h2; cases h

example : writePid (ascii "/run/b.pid") 4711 [(ascii "/x", [])] true 100 = (.ok (), [(ascii "/run/b.pid", ascii "4711"), (ascii "/x", [])]) ∧
    writePid (ascii "/run/b.pid") 4711 [(ascii "/run/b.pid", ascii "12")] true 100 = (.error .pid, [(ascii "/run/b.pid", ascii "12")]) := by decide +kernel

end Babel
