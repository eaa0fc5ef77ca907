import Verif.Model.Manager
/-
The library compiled with `NDEBUG`, so that `assert` does nothing: the assertions at src/iconv.cpp:126, 130, 134 and
src/dictionary_manager.cpp:107.  (The one at src/language.cpp:411 never fails, see C05.)  Everything else is the same code.
-/
namespace Tgt

/-- `iconv` as the rest of `IConv::convert` (src/iconv.cpp:115-138) without assertions takes it: after any failure but EILSEQ and EINVAL
it goes on as after success.  The texts that a descriptor was given (`hist`) include those for which it failed in this way: it is not
reset for them. -/
def IconvLib.unasserted (lib : IconvLib) : IconvLib where
  iconvOpen := lib.iconvOpen
  conv to «from» hist text cap :=
    let r := lib.conv to «from» hist text cap
    { r with status := match r.status with
      | .eilseq => .eilseq
      | .einval => .einval
      | _ => .ok }
  conv_cap := fun to «from» hist text cap => lib.conv_cap to «from» hist text cap

namespace POParser

/-- `POParser` (src/po_parser.cpp:40-490) compiled without assertions: only `IConv::convert` contains some. -/
def runRelease (c : Cfg) (input : Stream) (dict : Dictionary) : Res PState Unit :=
  run { c with lib := c.lib.unasserted } input dict

end POParser

namespace Manager
open Prog

/-- `get_dictionary(language)` (src/dictionary_manager.cpp:102-183) compiled without assertions: line 107 is gone, and no other. -/
def getDictionaryForRelease (env : Env) : Nat → Language → M DictId
  | 0, _ => diverge
  | f + 1, language => do
    let m ← get
    match m.dictionaries.get? language with
    | some id => Prog.pure id
    | none => do
      let id ← newDict language
      loadDirs { env with lib := env.lib.unasserted } id language m.searchPath.reverse
      (if !language.getCountry.isEmpty then do
        let fb ← getDictionaryForRelease env f (Language.fromSpec language.getLanguage [] [])
        addFallback id fb
      else Prog.pure ())
      Prog.pure id

/-- `get_dictionary()` (src/dictionary_manager.cpp:81-100) in the same build. -/
def getDictionaryRelease (env : Env) : M DictId := do
  let m ← get
  match m.currentDict with
  | some p => Prog.pure p
  | none =>
    if m.currentLanguage.isDefined then do
      let p ← getDictionaryForRelease env env.fuel m.currentLanguage
      modify (fun m => { m with currentDict := some p })
      Prog.pure p
    else Prog.pure emptyDict

end Manager
end Tgt
