#!/usr/bin/env python3
"""Generates lean/Verif/Model/LanguageTable.lean from /repo/src/language.cpp and checks that the
plural table in lean/Verif/Model/PluralForms.lean is the one in /repo/src/plural_forms.cpp."""
import re,sys,os
root=os.path.join(os.path.dirname(os.path.abspath(__file__)),"..")
src=open("/repo/src/language.cpp",encoding="utf-8").read().split("\n")
rows=[];aliases=[]
def lit(t):
    t=t.strip()
    if t in("0","NULL"): return None
    assert t[0]=='"' and t[-1]=='"' and '\\' not in t,t
    return t[1:-1]
tok=re.compile(r'"[^"]*"|NULL|\b0\b')
for i,l in enumerate(src,1):
    if 48<i<292 and l.strip().startswith("{"):
        f=[lit(x) for x in tok.findall(l)]
        assert len(f)==5,(i,l,f)
        if f[0] is None: continue
        rows.append((i,f))
    m=re.match(r'\s*language_aliases\["([^"]*)"\]\s*=\s*"([^"]*)";',l)
    if m: aliases.append((i,m.group(1),m.group(2)))
def o(x): return "none" if x is None else 'some b!"%s"'%x
out=["import Verif.Base","/-","The two static tables of src/language.cpp, transcribed by tools/gentables.py: every row, every","column, in source order; the number in front of each row is its line in src/language.cpp.","-/","namespace Tgt","",
"/-- `struct LanguageSpec` (src/language.cpp:29-44); a null `const char*` is `none`. -/",
"structure LanguageSpec where","  language : Str","  country : Option Str","  modifier : Option Str","  name : Str","  nameLocalized : Option Str","  deriving DecidableEq, Repr","",
"/-- `languages[]` (src/language.cpp:48-291) without the terminating null row (:290). -/",
"def languages : List LanguageSpec := ["]
for k,(i,f) in enumerate(rows):
    out.append('  /- %d -/ ⟨b!"%s", %s, %s, b!"%s", %s⟩%s'%(i,f[0],o(f[1]),o(f[2]),f[3],o(f[4]),"," if k<len(rows)-1 else ""))
out.append("]");out.append("")
out.append("/-- `language_aliases` (src/language.cpp:309-355), in source order. -/")
out.append("def languageAliases : List (Str × Str) := [")
for k,(i,a,b) in enumerate(aliases):
    out.append('  /- %d -/ (b!"%s", b!"%s")%s'%(i,a,b,"," if k<len(aliases)-1 else ""))
out.append("]");out.append("");out.append("end Tgt")
txt="\n".join(out)+"\n"
p=os.path.join(root,"lean/Verif/Model/LanguageTable.lean")
if "--check" in sys.argv: assert open(p,encoding="utf-8").read()==txt,"LanguageTable.lean differs from source"
else: open(p,"w",encoding="utf-8").write(txt)
print(len(rows),"rows",len(aliases),"aliases")
ps=open("/repo/src/plural_forms.cpp").read()
a=re.findall(r'plural_forms\["([^"]*)"\]\s*=\s*PluralForms\((\d+), (\w+)\);',ps)
b=re.findall(r'\(b!"([^"]*)", ⟨(\d+), some \.(\w+)⟩\)',open(os.path.join(root,"lean/Verif/Model/PluralForms.lean")).read())
assert a==b and len(a)==25,(len(a),len(b))
print("plural table ok",len(a))
