import re
g=open('/repo/esl/geography/countries.hpp',encoding='utf-8').read()
s=open('/repo/esl/economics/currencies.hpp',encoding='utf-8').read()
j=open('/repo/esl/law/jurisdictions.hpp',encoding='utf-8').read()
def b(t): return '['+', '.join(str(x) for x in t.encode('utf-8'))+']'
K=[m.group(2)+m.group(3) for m in re.finditer(r"iso_3166_1_alpha_2 (\w+)\s*=\s*iso_3166_1_alpha_2\(\s*std::array<char, 2>\s*\{'(.)',\s*'(.)'\}\)",g)]
KN=re.findall(r"case unique_hash\((\w+)\):\s*return \"([^\"]*)\"",g)
C=[(''.join(m.group(2,3,4)),int(m.group(5) or 100)) for m in re.finditer(r"constexpr iso_4217 (\w+)\s*=\s*iso_4217\(\{'(.)',\s*'(.)',\s*'(.)'\}(?:,\s*(\d+))?\)",s)]
CN=re.findall(r"case unique_hash\((?:\w+::)*(\w+)\):\s*return \"([^\"]*)\"",s)
def lines(x): return ',\n'.join('  '+l for l in x)
def chunk(x,n=12):
    return ',\n'.join('  '+', '.join(x[i:i+n]) for i in range(0,len(x),n))
def table(name,pairs):
    out=[]
    for i,(c,n) in enumerate(pairs):
        out.append('  (%s, %s)%s -- %s %s'%(b(c),b(n),',' if i+1<len(pairs) else '',c,n))
    return '\n'.join(out)
text='''import Verif.Model.Codes
/-!
The tables of countries and currencies, and the functions that look names up in them: `esl/geography/countries.hpp` and `esl/economics/currencies.hpp`.

The tables are generated from the source files. Texts are their bytes (UTF-8).
-/
namespace Esl.Names
open Esl.Codes

/-- countries.hpp:39-288: the codes of the constants in `countries`. -/
def countries : List (List Nat) := [
%s
]

/-- countries.hpp:305-799: the cases of `country_name`, with the code in the `case` and the text that is returned. -/
def countryNames : List (List Nat × List Nat) := [
%s
]

/-- currencies.hpp:39-217: the codes and denominators of the constants in `currencies`; the denominator is 100 where none is given (iso_4217.hpp:72-73). -/
def currencies : List (List Nat × Nat) := [
%s
]

/-- currencies.hpp:237-593: the cases of `currency_name`. -/
def currencyNames : List (List Nat × List Nat) := [
%s
]

/-- countries.hpp:292-296 `unique_hash` for countries, on `size_t`. -/
def countryUniqueHash (c : List Nat) : Nat :=
  match c with
  | [a, b] => u64 (u64 (u64 (u64 (a + (2 ^ 64 - 65)) + 26 * b)) + (2 ^ 64 - 65))
  | _ => 0

/-- currencies.hpp:222-228 `unique_hash` for currencies, and iso_4217.hpp:185-190 `std::hash<iso_4217>`, which are the same expression on `size_t`. -/
def currencyHash (c : List Nat) : Nat :=
  match c with
  | [a, b, d] => u64 (u64 (u64 (u64 (u64 (a + (2 ^ 64 - 65)) + 26 * b) + (2 ^ 64 - 65)) + 676 * d) + (2 ^ 64 - 65))
  | _ => 0

/-- iso_4217.hpp:72-86: the constructor; the code has three characters. -/
def currency (c : List Nat) (denominator : Nat) : Outcome (List Nat × Nat) :=
  match c with
  | [a, b, d] => if isUpper a && isUpper b && isUpper d then (if denominator = 0 then .throws else .ok ([a, b, d], denominator)) else .throws
  | _ => .ub

/-- A `switch` on a hash: the text of the case with the same hash, if there is one. -/
def switchOn (hash : List Nat → Nat) (cases : List (List Nat × List Nat)) (c : List Nat) : Option (List Nat) :=
  (cases.find? fun e => hash e.1 == hash c).map (·.2)

/-- The text `iso_3166_1_alpha_2 ` (countries.hpp:802). -/
def countryPrefix : List Nat := %s

/-- countries.hpp:299-804 `country_name`. -/
def countryName (c : List Nat) : List Nat := (switchOn countryUniqueHash countryNames c).getD (countryPrefix ++ c)

/-- currencies.hpp:231-597 `currency_name`. It does not depend on the denominator. -/
def currencyName (c : List Nat) : List Nat := (switchOn currencyHash currencyNames c).getD c

end Esl.Names
''' % (chunk([b(x) for x in K]), table('',KN), chunk(['(%s, %d)'%(b(c),d) for c,d in C],8), table('',CN), b('iso_3166_1_alpha_2 '))
open('/verif/lean/Verif/Model/Names.lean','w').write(text)
print(len(K),len(KN),len(C),len(CN))
