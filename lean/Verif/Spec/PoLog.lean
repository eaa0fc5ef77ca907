import Verif.Spec.PoFile
import Verif.Spec.Observe
/-
Specification of the messages a (strictly) well-formed PO file gives rise to, up to their place in the
file, together with everything else that loading it does.
-/
namespace Tgt.Spec.Po

/-- A message without the line it is about. -/
def unplaced : Diag → Diag
  | .po lv f _ m _ => .po lv f 0 m []
  | d => d

/-- Messages about header lines, when the plural rule so far is `r`. -/
def headerMessages (ct : CType) : PluralForms → List Str → List Str
  | _, [] => []
  | r, l :: ls =>
    if b!"Content-Type:".isPrefixOf l then
      if b!"Content-Type: text/plain; charset=".isPrefixOf l then headerMessages ct r ls
      else b!"malformed Content-Type header" :: headerMessages ct r ls
    else if b!"Plural-Forms:".isPrefixOf l then
      if (PluralForms.fromString ct l).isDefined = false then
        b!"unknown Plural-Forms given" :: headerMessages ct r ls
      else if r.isDefined = false then headerMessages ct (PluralForms.fromString ct l) ls
      else if r ≠ PluralForms.fromString ct l then
        b!"Plural-Forms missmatch between .po file and dictionary" :: headerMessages ct r ls
      else headerMessages ct r ls
    else headerMessages ct r ls

/-- All messages about a header. -/
def headerWarnings (ct : CType) (r : PluralForms) (header : Str) : List Str :=
  headerMessages ct r (splitLines header).1 ++
  (if declaredCharset ct header = [] ∨ declaredCharset ct header = b!"CHARSET"
    then [b!"charset not specified for .po, fallback to utf-8"] else [])

/-- Messages about the number of plural strings. -/
def pluralWarnings (r : PluralForms) (n : Nat) : List Str :=
  if r.isDefined = false then [b!"msgstr[N] seen, but no Plural-Forms given"]
  else if n ≠ r.getNplural then [b!"msgstr[N] count doesn't match Plural-Forms.nplural"]
  else []

/-- Messages from converting strings one after the other. -/
def convertMessages (lib : IconvLib) : IConv → List (Nat × Str) → List Diag
  | _, [] => []
  | cv, (_, t) :: r =>
    match cv.convert lib t with
    | .fault _ => []
    | .ok _ cv' l => l ++ convertMessages lib cv' r

/-- The plural rule of a dictionary after a header. -/
def withHeaderRule (ct : CType) (header : Str) (d : Dictionary) : Dictionary :=
  { d with pluralForms := if d.pluralForms.isDefined then d.pluralForms else (headerRule ct header).getD d.pluralForms }

/-- Loading entries into a dictionary: everything that can be observed, with unplaced messages.
`file` is the file name used in messages. -/
def loadFull (ct : CType) (lib : IconvLib) (useFuzzy : Bool) (file : Str) :
    List Entry → IConv → Dictionary → List Diag → Observed
  | [], _, d, l => .returned d l
  | en :: rest, cv, d, l =>
    match en.header?, en.body with
    | some t, _ =>
      match cv.setCharsets ct lib (sourceCharset ct t) d.charset with
      | (cv', none) => loadFull ct lib useFuzzy file rest cv' (withHeaderRule ct t d)
          (l ++ (headerWarnings ct d.pluralForms t).map (Diag.po .warning file 0 · []))
      | (_, some w) => .threw w (withHeaderRule ct t d)
          (l ++ (headerWarnings ct d.pluralForms t).map (Diag.po .warning file 0 · []))
    | none, .single t =>
      if t ≠ [] ∧ (useFuzzy = true ∨ en.fuzzy = false) then
        match cv.convert lib t with
        | .fault f => .crashed f
        | .ok t' cv' l' => loadFull ct lib useFuzzy file rest cv' ((Add.singular en.ctxt en.msgid t').apply d).1
            (l ++ l' ++ ((Add.singular en.ctxt en.msgid t').apply d).2)
      else loadFull ct lib useFuzzy file rest cv d l
    | none, .plural idp strs =>
      match convertAll lib cv strs with
      | .error f => .crashed f
      | .ok (strs', cv') =>
        if (∃ x ∈ strs, x.2 ≠ []) ∧ (useFuzzy = true ∨ en.fuzzy = false) then
          loadFull ct lib useFuzzy file rest cv' ((Add.plural en.ctxt en.msgid idp (pluralVec strs')).apply d).1
            (l ++ convertMessages lib cv strs ++
              (pluralWarnings d.pluralForms (pluralVec strs').length).map (Diag.po .warning file 0 · []) ++
              ((Add.plural en.ctxt en.msgid idp (pluralVec strs')).apply d).2)
        else loadFull ct lib useFuzzy file rest cv' d (l ++ convertMessages lib cv strs)

end Tgt.Spec.Po
