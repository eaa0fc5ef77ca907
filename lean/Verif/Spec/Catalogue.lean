import Verif.Spec.Loading
import Verif.Spec.Recode
/-
Specification of message catalogues installed in the directories of a search path.
-/
namespace Tgt.Spec
open Manager Po

/-- A catalogue: charset and Plural-Forms line of its header, its messages as they are written in the file, in that charset, and
its messages with the translations in the charset of the application (the same if the charsets are the same). -/
structure Catalogue where
  charset : Str
  rule : Str
  file : List Message
  messages : List Message
  deriving DecidableEq, Repr

namespace Catalogue

/-- The catalogue as a PO file. -/
def text (c : Catalogue) : Str := unlines (writeCatalog c.charset (some c.rule) c.file)

/-- The catalogue has a message with this context and msgid. -/
def Has (c : Catalogue) (ctxt : Option Str) (msgid : Str) : Prop :=
  ∃ m ∈ c.messages, m.ctxt = ctxt ∧ m.msgid = msgid

/-- A catalogue that a manager with charset `cs` can load: its messages can be written, no two have the same context
and msgid, its charset is `cs` or the library converts its translations to `cs`, it declares the plural rule `r`, plural messages have as many strings as `r` asks for,
and the file is smaller than 2 GB. -/
structure Good (env : Env) (cs : Str) (r : PluralForms) (c : Catalogue) : Prop where
  messages : ∀ m ∈ c.file, m.Ok
  distinct : (c.messages.map (fun m => (m.ctxt, m.msgid))).Nodup
  ascii : ∀ b ∈ c.charset, b < 128
  oneLine : (10 : Byte) ∉ c.charset ∧ (10 : Byte) ∉ c.rule
  named : c.charset.map env.ct.toupper ∉ [[], b!"CHARSET", b!"BIG5"]
  charset : Recoded env.ct env.lib c.charset cs c.file c.messages
  rule : b!"Plural-Forms:" <+: c.rule ∧ PluralForms.fromString env.ct c.rule = r ∧ r.isDefined = true
  plurals : ∀ m ∈ c.file, m.plural ≠ none → m.strs.length = r.getNplural
  size : c.text.length + 8 < 2147483647
  fuel : c.text.length + 2 ≤ env.fuel

end Catalogue

/-- What directory `dir` holds for language `l`: nothing, or a catalogue as its best file. -/
inductive Installed (env : Env) (l : Language) (dir : Str) : Option Catalogue → Prop where
  | nothing {files : List Str} : env.fs.openDirectory dir = .ok files → NoFile env.ct l files → Installed env l dir none
  | catalogue {files : List Str} {f : Str} {c : Catalogue} : env.fs.openDirectory dir = .ok files →
    BestFile env.ct l files f → env.fs.openFile (dir ++ b!"/" ++ f) = .stream (.ofBytes c.text) → Installed env l dir (some c)

/-- The directories of a search path (highest priority first) with the catalogues they hold for a language. -/
abbrev Installation := List (Str × Option Catalogue)

/-- The search path `path` holds this for language `l`, and everything can be loaded. -/
structure Offers (env : Env) (cs : Str) (r : PluralForms) (l : Language) (path : List Str) (i : Installation) : Prop where
  path : path = i.map Prod.fst
  installed : ∀ x ∈ i, Installed env l x.1 x.2
  good : ∀ x ∈ i, ∀ c, x.2 = some c → c.Good env cs r

/-- No catalogue has a message with this context and msgid. -/
def Lacks (i : Installation) (ctxt : Option Str) (msgid : Str) : Prop :=
  ∀ x ∈ i, ∀ c, x.2 = some c → ¬ c.Has ctxt msgid

/-- `m` is in the first catalogue that has a message with its context and msgid. -/
def First (i : Installation) (m : Message) : Prop :=
  ∃ before dir c after, i = before ++ (dir, some c) :: after ∧ m ∈ c.messages ∧ Lacks before m.ctxt m.msgid

/-- The plural lookup of a message without context, or in a context. -/
def pluralLookupOf : Option Str → Str → Str → Int → Query
  | none, i, p, n => .plural i p n
  | some c, i, p, n => .ctxtPlural c i p n

/-- Lookups of message `m` through dictionary `p` give what was written: its string, or the string that plural rule `r`
selects (unless it is empty). -/
def Translated (r : PluralForms) (m : Message) (p : DictId) (s : Manager) : Prop :=
  (m.plural = none → ∀ k, ask (k + 1) p (lookupOf m.ctxt m.msgid) s = .ok (m.strs.headD []) s) ∧
  ∀ q, m.plural = some q → ∀ k n t, m.strs[r.getPlural n]? = some t → t ≠ [] →
    ask (k + 1) p (pluralLookupOf m.ctxt m.msgid q n) s = .ok t s

end Tgt.Spec
