import Verif.Spec.Config
/-
What is not in the configuration language: texts that are refused.
-/
namespace Babel.Spec

/-- Nothing follows in the same word. -/
def Delim (r : Bytes) : Prop := r = [] ∨ ∃ c t, r = c :: t ∧ (BlankC c ∨ c = 10 ∨ c = 35)

/-- Nothing follows on the same line, except perhaps a comment. -/
def LineOver (r : Bytes) : Prop :=
  ∃ ws t, r = ws ++ t ∧ (∀ c ∈ ws, BlankC c) ∧ (t = [] ∨ t.head? = some 10 ∨ t.head? = some 35)

/-- A number, perhaps with a sign; vertical tabs and form feeds before it are ignored. -/
def NumWord (w : Bytes) : Prop :=
  ∃ sp sg body n, w = sp ++ (sg ++ body) ∧ (∀ c ∈ sp, 9 ≤ c.toNat ∧ c.toNat ≤ 13 ∨ c.toNat = 32) ∧
    (sg = [] ∨ sg = [43] ∨ sg = [45]) ∧ NumText body n

/-- A word that is not a number between `lo` and `hi`. -/
inductive BadNum (lo hi : Nat) : Bytes → Prop
  | word {w} : Word w → ¬ NumWord w → BadNum lo hi w
  | range {w n} : NumText w n → n < 2147483648 → n < lo ∨ hi < n → BadNum lo hi w
  | negative {w n} : NumText w n → w.length ≤ 254 → 0 < n → n < 2147483648 → BadNum lo hi (45 :: w)

/-- A word that is not a time between `lo` and `hi` thousandths. -/
inductive BadThou (lo hi : Nat) : Bytes → Prop
  | word {w} : Word w →
      (¬ ∃ ds tl, w = ds ++ tl ∧ (∀ c ∈ ds, Digit c) ∧ (tl = [] ∨ ∃ fs, tl = 46 :: fs ∧ ∀ c ∈ fs, Digit c)) →
      BadThou lo hi w
  | range {w n} : ThouText w n → n ≤ 2147482000 → n < lo ∨ hi < n → BadThou lo hi w

def BadBool (w : Bytes) : Prop := Word w ∧ ∀ v, ¬ BoolText w v
def BadType (w : Bytes) : Prop := Word w ∧ ∀ v, ¬ TypeText w v
def BadAddr (L : Libc) (w : Bytes) : Prop := Word w ∧ L.pton4 w = none ∧ L.pton6 w = none
def BadId (L : Libc) (w : Bytes) : Prop := Word w ∧ L.eui64 w = none
def BadHex (w : Bytes) : Prop := Word w ∧ ∀ v, ¬ Spells w v
def BadAuth (w : Bytes) : Prop := Word w ∧ w ≠ ascii "none" ∧ w ≠ ascii "hmac-sha256" ∧ w ≠ ascii "blake2s128"

inductive BadNet (L : Libc) : Bytes → Prop
  | host {w} : w ≠ ascii "default" → 47 ∉ w → BadAddr L w → BadNet L w
  | long {b t} : Word (b ++ 47 :: t) → 47 ∉ b → 45 < b.length → BadNet L (b ++ 47 :: t)
  | addr {b t} : Word (b ++ 47 :: t) → 47 ∉ b → BadAddr L b → BadNet L (b ++ 47 :: t)
  | plen4 {b a t} : Word (b ++ 47 :: t) → 47 ∉ b → AddrText L b a .v4 → BadNum 0 32 t → BadNet L (b ++ 47 :: t)
  | plen6 {b a t} : Word (b ++ 47 :: t) → 47 ∉ b → AddrText L b a .v6 → BadNum 0 128 t → BadNet L (b ++ 47 :: t)

/-- A quoted string that is not closed before the end of the line, or too long. -/
inductive BadString : Bytes → Prop
  | opened {q s t} : Quoted q s → t = [] ∨ t.head? = some 10 → BadString (34 :: (q ++ t))
  | long {q s t} : Quoted q s → 255 ≤ s.length → BadString (34 :: (q ++ t))

/-- The keywords of filters, and the values they cannot have. -/
def filterArgs (L : Libc) : List (String × (Bytes → Prop)) :=
  [("ip", BadNet L), ("src-ip", BadNet L), ("src-prefix", BadNet L),
   ("eq", fun w => Word w ∧ ¬ NumWord w), ("le", fun w => Word w ∧ ¬ NumWord w), ("ge", fun w => Word w ∧ ¬ NumWord w),
   ("src-eq", fun w => Word w ∧ ¬ NumWord w), ("src-le", fun w => Word w ∧ ¬ NumWord w),
   ("src-ge", fun w => Word w ∧ ¬ NumWord w), ("proto", fun w => Word w ∧ ¬ NumWord w),
   ("metric", BadNum 1 65535), ("table", BadNum 1 65535),
   ("neigh", BadAddr L), ("pref-src", BadAddr L), ("id", BadId L), ("if", fun _ => False)]

def interfaceArgs (known : Bytes → Prop) : List (String × (Bytes → Prop)) :=
  [("rxcost", BadNum 1 65535), ("rtt-decay", BadNum 1 256), ("max-rtt-penalty", BadNum 1 65535),
   ("hello-interval", BadThou 1 655350), ("update-interval", BadThou 1 655350),
   ("rtt-min", BadThou 1 2147482000), ("rtt-max", BadThou 1 2147482000), ("type", BadType), ("wired", BadBool),
   ("split-horizon", BadBool), ("link-quality", BadBool), ("faraway", BadBool), ("unicast", BadBool),
   ("enable-timestamps", BadBool), ("rfc6126-compatible", BadBool), ("accept-bad-signatures", BadBool),
   ("v4-via-v6", BadBool), ("probe-mtu", BadBool), ("key", fun w => Word w ∧ ¬ known w)]

def keyArgs : List (String × (Bytes → Prop)) :=
  [("id", fun _ => False), ("type", BadAuth), ("value", BadHex)]

def optionArgs (L : Libc) : List (String × (Bytes → Prop)) :=
  [("protocol-port", BadNum 1 65534), ("kernel-priority", BadNum 1 65534), ("allow-duplicates", BadNum 1 65534),
   ("local-port", BadNum 1 65534), ("local-port-readwrite", BadNum 1 65534), ("export-table", BadNum 1 65534),
   ("import-table", BadNum 1 65534), ("kernel-check-interval", BadNum 1 65534), ("shutdown-delay-ms", BadNum 1 65534),
   ("link-detect", BadBool), ("random-id", BadBool), ("daemonise", BadBool), ("skip-kernel-setup", BadBool),
   ("ipv6-subtrees", BadBool), ("reflect-kernel-metric", BadBool), ("protocol-group", BadAddr L),
   ("router-id", BadId L), ("debug", BadNum 0 2147483647), ("smoothing-half-life", BadNum 0 2147483647),
   ("state-file", fun _ => False), ("log-file", fun _ => False), ("pid-file", fun _ => False),
   ("local-path", fun _ => False), ("local-path-readwrite", fun _ => False)]

/-- An offence against a list of keywords with values: the text from there on.  `others` are the
keywords without value. -/
inductive Offence (args : List (String × (Bytes → Prop))) (others : List String) : Bytes → Prop
  | unknown {w r} : Word w → (∀ kw ∈ args.map (·.1) ++ others, w ≠ ascii kw) → Delim r → Offence args others (w ++ r)
  | missing {kw r} : kw ∈ args.map (·.1) → LineOver r → Offence args others (ascii kw ++ r)
  | value {kw B g w r} : (kw, B) ∈ args → Gap g → B w → Delim r → Offence args others (ascii kw ++ (g ++ (w ++ r)))

/-- The words a line can start with, apart from options. -/
def firstWords : List String :=
  ["quit", "dump", "monitor", "unmonitor", "in", "out", "redistribute", "install", "interface", "default", "flush",
   "reopen-logfile", "key"]

/-- Commands: they are only for control connections. -/
def commands : List String := ["quit", "dump", "monitor", "unmonitor", "reopen-logfile"]

/-- Keywords with a string. -/
def stringOptions : List String := ["state-file", "log-file", "pid-file", "local-path", "local-path-readwrite"]

/-- The rest of a configuration file starts with a line that is refused. -/
inductive BadLine (L : Libc) (known : Bytes → Prop) : Bytes → Prop
  | option {o} : Offence (optionArgs L) firstWords o → BadLine L known o
  | optionString {kw g q} : kw ∈ stringOptions → Gap g → BadString q → BadLine L known (ascii kw ++ (g ++ q))
  | optionMore {f t g w r} : OptText L f t → Gap g → Word w → Delim r → BadLine L known (t ++ (g ++ (w ++ r)))
  | command {kw r} : kw ∈ commands → Delim r → BadLine L known (ascii kw ++ r)
  | filter {c r t g o} : Clauses (FText L) r t → Gap g → Offence (filterArgs L) ["local", "allow", "deny"] o →
      BadLine L known (ascii (Chain.word c) ++ (t ++ (g ++ o)))
  | filterString {c r t g h q} : Clauses (FText L) r t → Gap g → Gap h → BadString q →
      BadLine L known (ascii (Chain.word c) ++ (t ++ (g ++ (ascii "if" ++ (h ++ q)))))
  | families {c r t e u} : Clauses (FText L) r t → ¬ Agree r → Ends e u →
      BadLine L known (ascii (Chain.word c) ++ (t ++ (e ++ u)))
  | interface {name l h w t g o} : Gap h → StrText w name → Clauses IText l t → (∀ id, .key id ∈ l → known id) →
      Gap g → Offence (interfaceArgs known) [] o →
      BadLine L known (ascii "interface" ++ (h ++ (w ++ (t ++ (g ++ o)))))
  | interfaceName {r} : LineOver r → BadLine L known (ascii "interface" ++ r)
  | interfaceString {h q} : Gap h → BadString q → BadLine L known (ascii "interface" ++ (h ++ q))
  | default {l t g o} : Clauses IText l t → (∀ id, .key id ∈ l → known id) →
      Gap g → Offence (interfaceArgs known) [] o → BadLine L known (ascii "default" ++ (t ++ (g ++ o)))
  | key {l t g o} : Clauses KText l t → Gap g → Offence keyArgs [] o → BadLine L known (ascii "key" ++ (t ++ (g ++ o)))
  | keyShape {l t e u} : Clauses KText l t → keyDef l = none → Ends e u → BadLine L known (ascii "key" ++ (t ++ (e ++ u)))

/-- Some line of the file is refused. -/
inductive BadFile (L : Libc) : (Bytes → Prop) → Bytes → Prop
  | here {known g o} : (∀ x ∈ g, BlankC x) → BadLine L known o → BadFile L known (g ++ o)
  | later {known x t e u} : LineText L x t → Ends e u → LineOk known x → t ++ e ≠ [] →
      BadFile L (fun id => known id ∨ ∃ l k, x = .key l ∧ keyDef l = some k ∧ k.id = id) u →
      BadFile L known (t ++ (e ++ u))

end Babel.Spec
