import Verif.Model.Manager
/-
A file system that changes while a call runs: the code of src/dictionary_manager.cpp that goes to the file system, with every access answered by the
file system of its moment.
-/
namespace Tgt
namespace Changing
open Manager

/-- Manager code in a changing world; the number counts the accesses to the file system so far. -/
abbrev W := Prog (Manager × Nat)

/-- Code that does not go to the file system. -/
def lift {α : Type} (p : M α) : W α := fun x =>
  match p x.1 with
  | .ok a m => .ok a (m, x.2)
  | .poError m => .poError (m, x.2)
  | .exn w m => .exn w (m, x.2)
  | .fault f => .fault f
  | .diverge => .diverge

/-- `filesystem->open_directory(dir)` (src/dictionary_manager.cpp:123, 192); `fs t` is the file system at the `t`-th access. -/
def listing (fs : Nat → FileSys) (dir : Str) : W (Except Str (List Str)) := fun x =>
  .ok ((fs x.2).openDirectory dir) (x.1, x.2 + 1)

/-- `filesystem->open_file(path)` (src/dictionary_manager.cpp:158). -/
def opening (fs : Nat → FileSys) (path : Str) : W OpenFile := fun x => .ok ((fs x.2).openFile path) (x.1, x.2 + 1)

/-- Loading the best file of one directory (src/dictionary_manager.cpp:153-173). -/
def loadFile (env : Env) (fs : Nat → FileSys) (id : DictId) (dir bestFilename : Str) : W Unit :=
  if !bestFilename.isEmpty then
    let pofile := dir ++ b!"/" ++ bestFilename
    Prog.bind (opening fs pofile) fun r =>
      match r with
      | .throws w => lift (emit [.parseFailure pofile, .parseFailureWhat w])
      | .null => lift (emit [.openFailure pofile])
      | .stream s => lift (parseInto env id pofile s)
  else Prog.pure ()

/-- The loop over the search path (src/dictionary_manager.cpp:121-174). -/
def loadDirs (env : Env) (fs : Nat → FileSys) (id : DictId) (language : Language) : List Str → W Unit
  | [] => Prog.pure ()
  | dir :: t =>
    Prog.bind (listing fs dir) fun r =>
      match r with
      | .error w => Prog.throwExn w
      | .ok files =>
        Prog.bind (lift (scanFiles env language files ([], 0))) fun best =>
          Prog.bind (loadFile env fs id dir best.1) fun _ => loadDirs env fs id language t

/-- `get_dictionary(language)` (src/dictionary_manager.cpp:102-183). -/
def getDictionaryFor (env : Env) (fs : Nat → FileSys) : Nat → Language → W DictId
  | 0, _ => Prog.diverge
  | f + 1, language =>
    if !language.isDefined then Prog.fault .assertFailed
    else
      Prog.bind Prog.get fun x =>
        match x.1.dictionaries.get? language with
        | some id => Prog.pure id
        | none =>
          Prog.bind (lift (newDict language)) fun id =>
          Prog.bind (loadDirs env fs id language x.1.searchPath.reverse) fun _ =>
          Prog.bind (if !language.getCountry.isEmpty then
              Prog.bind (getDictionaryFor env fs f (Language.fromSpec language.getLanguage [] [])) fun fb => lift (addFallback id fb)
            else Prog.pure ()) fun _ =>
          Prog.pure id

/-- `get_dictionary()` (src/dictionary_manager.cpp:81-100). -/
def getDictionary (env : Env) (fs : Nat → FileSys) : W DictId :=
  Prog.bind Prog.get fun x =>
    match x.1.currentDict with
    | some p => Prog.pure p
    | none =>
      if x.1.currentLanguage.isDefined then
        Prog.bind (getDictionaryFor env fs env.fuel x.1.currentLanguage) fun p =>
        Prog.bind (lift (Prog.modify (fun m => { m with currentDict := some p }))) fun _ =>
        Prog.pure p
      else Prog.pure emptyDict

/-- The outer loop of `get_languages` (src/dictionary_manager.cpp:190-201). -/
def collectDirs (fs : Nat → FileSys) : List Str → List Language → W (List Language)
  | [], acc => Prog.pure acc
  | dir :: t, acc =>
    Prog.bind (listing fs dir) fun r =>
      match r with
      | .error w => Prog.throwExn w
      | .ok files => collectDirs fs t (collectFiles files acc)

/-- `get_languages` (src/dictionary_manager.cpp:185-203). -/
def getLanguages (fs : Nat → FileSys) : W (List Language) :=
  Prog.bind Prog.get fun x => collectDirs fs x.1.searchPath []

end Changing
end Tgt
