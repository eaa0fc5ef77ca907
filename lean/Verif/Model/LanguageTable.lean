import Verif.Base
/-
The two static tables of src/language.cpp, transcribed by tools/gentables.py: every row, every
column, in source order; the number in front of each row is its line in src/language.cpp.
-/
namespace Tgt

/-- `struct LanguageSpec` (src/language.cpp:29-44); a null `const char*` is `none`. -/
structure LanguageSpec where
  language : Str
  country : Option Str
  modifier : Option Str
  name : Str
  nameLocalized : Option Str
  deriving DecidableEq, Repr

/-- `languages[]` (src/language.cpp:48-291) without the terminating null row (:290). -/
def languages : List LanguageSpec := [
  /- 49 -/ ⟨b!"aa", none, none, b!"Afar", some b!"ʿAfár af"⟩,
  /- 50 -/ ⟨b!"af", none, none, b!"Afrikaans", some b!"Afrikaans"⟩,
  /- 51 -/ ⟨b!"af", some b!"ZA", none, b!"Afrikaans (South Africa)", none⟩,
  /- 52 -/ ⟨b!"am", none, none, b!"Amharic", some b!"ኣማርኛ"⟩,
  /- 53 -/ ⟨b!"ar", none, none, b!"Arabic", some b!"العربية"⟩,
  /- 54 -/ ⟨b!"ar", some b!"AR", none, b!"Arabic (Argentina)", none⟩,
  /- 55 -/ ⟨b!"ar", some b!"OM", none, b!"Arabic (Oman)", none⟩,
  /- 56 -/ ⟨b!"ar", some b!"SA", none, b!"Arabic (Saudi Arabia)", none⟩,
  /- 57 -/ ⟨b!"ar", some b!"SY", none, b!"Arabic (Syrian Arab Republic)", none⟩,
  /- 58 -/ ⟨b!"ar", some b!"TN", none, b!"Arabic (Tunisia)", none⟩,
  /- 59 -/ ⟨b!"as", none, none, b!"Assamese", some b!"অসমীয়া"⟩,
  /- 60 -/ ⟨b!"ast", none, none, b!"Asturian", some b!"Asturianu"⟩,
  /- 61 -/ ⟨b!"ay", none, none, b!"Aymara", some b!"aymar aru"⟩,
  /- 62 -/ ⟨b!"az", none, none, b!"Azerbaijani", some b!"Azərbaycanca"⟩,
  /- 63 -/ ⟨b!"az", some b!"IR", none, b!"Azerbaijani (Iran)", none⟩,
  /- 64 -/ ⟨b!"be", none, none, b!"Belarusian", some b!"Беларуская мова"⟩,
  /- 65 -/ ⟨b!"be", none, some b!"latin", b!"Belarusian", some b!"Беларуская мова"⟩,
  /- 66 -/ ⟨b!"bg", none, none, b!"Bulgarian", some b!"български"⟩,
  /- 67 -/ ⟨b!"bg", some b!"BG", none, b!"Bulgarian (Bulgaria)", none⟩,
  /- 68 -/ ⟨b!"bn", none, none, b!"Bengali", some b!"বাংলা"⟩,
  /- 69 -/ ⟨b!"bn", some b!"BD", none, b!"Bengali (Bangladesh)", none⟩,
  /- 70 -/ ⟨b!"bn", some b!"IN", none, b!"Bengali (India)", none⟩,
  /- 71 -/ ⟨b!"bo", none, none, b!"Tibetan", some b!"བོད་སྐད་"⟩,
  /- 72 -/ ⟨b!"br", none, none, b!"Breton", some b!"brezhoneg"⟩,
  /- 73 -/ ⟨b!"bs", none, none, b!"Bosnian", some b!"Bosanski"⟩,
  /- 74 -/ ⟨b!"bs", some b!"BA", none, b!"Bosnian (Bosnia/Herzegovina)", none⟩,
  /- 75 -/ ⟨b!"bs", some b!"BS", none, b!"Bosnian (Bahamas)", none⟩,
  /- 76 -/ ⟨b!"ca", some b!"ES", some b!"valencia", b!"Catalan (valencia)", none⟩,
  /- 77 -/ ⟨b!"ca", some b!"ES", none, b!"Catalan (Spain)", none⟩,
  /- 78 -/ ⟨b!"ca", none, some b!"valencia", b!"Catalan (valencia)", none⟩,
  /- 79 -/ ⟨b!"ca", none, none, b!"Catalan", none⟩,
  /- 80 -/ ⟨b!"cmn", none, none, b!"Mandarin", none⟩,
  /- 81 -/ ⟨b!"co", none, none, b!"Corsican", some b!"corsu"⟩,
  /- 82 -/ ⟨b!"cs", none, none, b!"Czech", some b!"Čeština"⟩,
  /- 83 -/ ⟨b!"cs", some b!"CZ", none, b!"Czech (Czech Republic)", some b!"Čeština (Česká Republika)"⟩,
  /- 84 -/ ⟨b!"cy", none, none, b!"Welsh", some b!"Welsh"⟩,
  /- 85 -/ ⟨b!"cy", some b!"GB", none, b!"Welsh (Great Britain)", some b!"Welsh (Great Britain)"⟩,
  /- 86 -/ ⟨b!"cz", none, none, b!"Unknown language", some b!"Unknown language"⟩,
  /- 87 -/ ⟨b!"da", none, none, b!"Danish", some b!"Dansk"⟩,
  /- 88 -/ ⟨b!"da", some b!"DK", none, b!"Danish (Denmark)", some b!"Dansk (Danmark)"⟩,
  /- 89 -/ ⟨b!"de", none, none, b!"German", some b!"Deutsch"⟩,
  /- 90 -/ ⟨b!"de", some b!"AT", none, b!"German (Austria)", some b!"Deutsch (Österreich)"⟩,
  /- 91 -/ ⟨b!"de", some b!"CH", none, b!"German (Switzerland)", some b!"Deutsch (Schweiz)"⟩,
  /- 92 -/ ⟨b!"de", some b!"DE", none, b!"German (Germany)", some b!"Deutsch (Deutschland)"⟩,
  /- 93 -/ ⟨b!"dk", none, none, b!"Unknown language", some b!"Unknown language"⟩,
  /- 94 -/ ⟨b!"dz", none, none, b!"Dzongkha", some b!"རྫོང་ཁ"⟩,
  /- 95 -/ ⟨b!"el", none, none, b!"Greek", some b!"ελληνικά"⟩,
  /- 96 -/ ⟨b!"el", some b!"GR", none, b!"Greek (Greece)", none⟩,
  /- 97 -/ ⟨b!"en", none, none, b!"English", some b!"English"⟩,
  /- 98 -/ ⟨b!"en", some b!"AU", none, b!"English (Australia)", some b!"English (Australia)"⟩,
  /- 99 -/ ⟨b!"en", some b!"CA", none, b!"English (Canada)", some b!"English (Canada)"⟩,
  /- 100 -/ ⟨b!"en", some b!"GB", none, b!"English (Great Britain)", some b!"English (Great Britain)"⟩,
  /- 101 -/ ⟨b!"en", some b!"US", none, b!"English (United States)", some b!"English (United States)"⟩,
  /- 102 -/ ⟨b!"en", some b!"ZA", none, b!"English (South Africa)", some b!"English (South Africa)"⟩,
  /- 103 -/ ⟨b!"en", none, some b!"boldquot", b!"English", some b!"English"⟩,
  /- 104 -/ ⟨b!"en", none, some b!"quot", b!"English", some b!"English"⟩,
  /- 105 -/ ⟨b!"en", some b!"US", some b!"piglatin", b!"English", some b!"English"⟩,
  /- 106 -/ ⟨b!"eo", none, none, b!"Esperanto", some b!"Esperanto"⟩,
  /- 107 -/ ⟨b!"es", none, none, b!"Spanish", some b!"Español"⟩,
  /- 108 -/ ⟨b!"es", some b!"AR", none, b!"Spanish (Argentina)", none⟩,
  /- 109 -/ ⟨b!"es", some b!"CL", none, b!"Spanish (Chile)", none⟩,
  /- 110 -/ ⟨b!"es", some b!"CO", none, b!"Spanish (Colombia)", none⟩,
  /- 111 -/ ⟨b!"es", some b!"CR", none, b!"Spanish (Costa Rica)", none⟩,
  /- 112 -/ ⟨b!"es", some b!"DO", none, b!"Spanish (Dominican Republic)", none⟩,
  /- 113 -/ ⟨b!"es", some b!"EC", none, b!"Spanish (Ecuador)", none⟩,
  /- 114 -/ ⟨b!"es", some b!"ES", none, b!"Spanish (Spain)", none⟩,
  /- 115 -/ ⟨b!"es", some b!"GT", none, b!"Spanish (Guatemala)", none⟩,
  /- 116 -/ ⟨b!"es", some b!"HN", none, b!"Spanish (Honduras)", none⟩,
  /- 117 -/ ⟨b!"es", some b!"LA", none, b!"Spanish (Laos)", none⟩,
  /- 118 -/ ⟨b!"es", some b!"MX", none, b!"Spanish (Mexico)", none⟩,
  /- 119 -/ ⟨b!"es", some b!"NI", none, b!"Spanish (Nicaragua)", none⟩,
  /- 120 -/ ⟨b!"es", some b!"PA", none, b!"Spanish (Panama)", none⟩,
  /- 121 -/ ⟨b!"es", some b!"PE", none, b!"Spanish (Peru)", none⟩,
  /- 122 -/ ⟨b!"es", some b!"PR", none, b!"Spanish (Puerto Rico)", none⟩,
  /- 123 -/ ⟨b!"es", some b!"SV", none, b!"Spanish (El Salvador)", none⟩,
  /- 124 -/ ⟨b!"es", some b!"UY", none, b!"Spanish (Uruguay)", none⟩,
  /- 125 -/ ⟨b!"es", some b!"VE", none, b!"Spanish (Venezuela)", none⟩,
  /- 126 -/ ⟨b!"et", none, none, b!"Estonian", some b!"eesti keel"⟩,
  /- 127 -/ ⟨b!"et", some b!"EE", none, b!"Estonian (Estonia)", none⟩,
  /- 128 -/ ⟨b!"et", some b!"ET", none, b!"Estonian (Ethiopia)", none⟩,
  /- 129 -/ ⟨b!"eu", none, none, b!"Basque", some b!"euskara"⟩,
  /- 130 -/ ⟨b!"eu", some b!"ES", none, b!"Basque (Spain)", none⟩,
  /- 131 -/ ⟨b!"fa", none, none, b!"Persian", some b!"فارسى"⟩,
  /- 132 -/ ⟨b!"fa", some b!"AF", none, b!"Persian (Afghanistan)", none⟩,
  /- 133 -/ ⟨b!"fa", some b!"IR", none, b!"Persian (Iran)", none⟩,
  /- 134 -/ ⟨b!"fi", none, none, b!"Finnish", some b!"suomi"⟩,
  /- 135 -/ ⟨b!"fi", some b!"FI", none, b!"Finnish (Finland)", none⟩,
  /- 136 -/ ⟨b!"fo", none, none, b!"Faroese", some b!"Føroyskt"⟩,
  /- 137 -/ ⟨b!"fo", some b!"FO", none, b!"Faeroese (Faroe Islands)", none⟩,
  /- 138 -/ ⟨b!"fr", none, none, b!"French", some b!"Français"⟩,
  /- 139 -/ ⟨b!"fr", some b!"CA", none, b!"French (Canada)", some b!"Français (Canada)"⟩,
  /- 140 -/ ⟨b!"fr", some b!"CH", none, b!"French (Switzerland)", some b!"Français (Suisse)"⟩,
  /- 141 -/ ⟨b!"fr", some b!"FR", none, b!"French (France)", some b!"Français (France)"⟩,
  /- 142 -/ ⟨b!"fr", some b!"LU", none, b!"French (Luxembourg)", some b!"Français (Luxembourg)"⟩,
  /- 143 -/ ⟨b!"fy", none, none, b!"Frisian", some b!"Frysk"⟩,
  /- 144 -/ ⟨b!"ga", none, none, b!"Irish", some b!"Gaeilge"⟩,
  /- 145 -/ ⟨b!"gd", none, none, b!"Gaelic Scots", some b!"Gàidhlig"⟩,
  /- 146 -/ ⟨b!"gl", none, none, b!"Galician", some b!"Galego"⟩,
  /- 147 -/ ⟨b!"gl", some b!"ES", none, b!"Galician (Spain)", none⟩,
  /- 148 -/ ⟨b!"gn", none, none, b!"Guarani", some b!"Avañe'ẽ"⟩,
  /- 149 -/ ⟨b!"gu", none, none, b!"Gujarati", some b!"ગુજરાતી"⟩,
  /- 150 -/ ⟨b!"gv", none, none, b!"Manx", some b!"Gaelg"⟩,
  /- 151 -/ ⟨b!"ha", none, none, b!"Hausa", some b!"حَوْسَ"⟩,
  /- 152 -/ ⟨b!"he", none, none, b!"Hebrew", some b!"עברית"⟩,
  /- 153 -/ ⟨b!"he", some b!"IL", none, b!"Hebrew (Israel)", none⟩,
  /- 154 -/ ⟨b!"hi", none, none, b!"Hindi", some b!"हिन्दी"⟩,
  /- 155 -/ ⟨b!"hi", some b!"IN", none, b!"Hindi (India)", none⟩,
  /- 156 -/ ⟨b!"hr", none, none, b!"Croatian", some b!"Hrvatski"⟩,
  /- 157 -/ ⟨b!"hr", some b!"HR", none, b!"Croatian (Croatia)", none⟩,
  /- 158 -/ ⟨b!"hu", none, none, b!"Hungarian", some b!"magyar"⟩,
  /- 159 -/ ⟨b!"hu", some b!"HU", none, b!"Hungarian (Hungary)", none⟩,
  /- 160 -/ ⟨b!"hy", none, none, b!"Armenian", some b!"Հայերեն"⟩,
  /- 161 -/ ⟨b!"ia", none, none, b!"Interlingua", some b!"Interlingua"⟩,
  /- 162 -/ ⟨b!"id", none, none, b!"Indonesian", some b!"Bahasa Indonesia"⟩,
  /- 163 -/ ⟨b!"id", some b!"ID", none, b!"Indonesian (Indonesia)", none⟩,
  /- 164 -/ ⟨b!"is", none, none, b!"Icelandic", some b!"Íslenska"⟩,
  /- 165 -/ ⟨b!"is", some b!"IS", none, b!"Icelandic (Iceland)", none⟩,
  /- 166 -/ ⟨b!"it", none, none, b!"Italian", some b!"Italiano"⟩,
  /- 167 -/ ⟨b!"it", some b!"CH", none, b!"Italian (Switzerland)", none⟩,
  /- 168 -/ ⟨b!"it", some b!"IT", none, b!"Italian (Italy)", none⟩,
  /- 169 -/ ⟨b!"iu", none, none, b!"Inuktitut", some b!"ᐃᓄᒃᑎᑐᑦ/inuktitut"⟩,
  /- 170 -/ ⟨b!"ja", none, none, b!"Japanese", some b!"日本語"⟩,
  /- 171 -/ ⟨b!"ja", some b!"JP", none, b!"Japanese (Japan)", none⟩,
  /- 172 -/ ⟨b!"ka", none, none, b!"Georgian", some b!"ქართული"⟩,
  /- 173 -/ ⟨b!"kk", none, none, b!"Kazakh", some b!"Қазақша"⟩,
  /- 174 -/ ⟨b!"kl", none, none, b!"Kalaallisut", some b!"Kalaallisut"⟩,
  /- 175 -/ ⟨b!"km", none, none, b!"Khmer", some b!"ភាសាខ្មែរ"⟩,
  /- 176 -/ ⟨b!"km", some b!"KH", none, b!"Khmer (Cambodia)", none⟩,
  /- 177 -/ ⟨b!"kn", none, none, b!"Kannada", some b!"ಕನ್ನಡ"⟩,
  /- 178 -/ ⟨b!"ko", none, none, b!"Korean", some b!"한국어"⟩,
  /- 179 -/ ⟨b!"ko", some b!"KR", none, b!"Korean (Korea)", none⟩,
  /- 180 -/ ⟨b!"ku", none, none, b!"Kurdish", some b!"Kurdî"⟩,
  /- 181 -/ ⟨b!"kw", none, none, b!"Cornish", some b!"Kernowek"⟩,
  /- 182 -/ ⟨b!"ky", none, none, b!"Kirghiz", none⟩,
  /- 183 -/ ⟨b!"la", none, none, b!"Latin", some b!"Latina"⟩,
  /- 184 -/ ⟨b!"lo", none, none, b!"Lao", some b!"ລາວ"⟩,
  /- 185 -/ ⟨b!"lt", none, none, b!"Lithuanian", some b!"Lietuvių"⟩,
  /- 186 -/ ⟨b!"lt", some b!"LT", none, b!"Lithuanian (Lithuania)", none⟩,
  /- 187 -/ ⟨b!"lv", none, none, b!"Latvian", some b!"Latviešu"⟩,
  /- 188 -/ ⟨b!"lv", some b!"LV", none, b!"Latvian (Latvia)", none⟩,
  /- 189 -/ ⟨b!"jbo", none, none, b!"Lojban", some b!"La .lojban."⟩,
  /- 190 -/ ⟨b!"mg", none, none, b!"Malagasy", some b!"Malagasy"⟩,
  /- 191 -/ ⟨b!"mi", none, none, b!"Maori", some b!"Māori"⟩,
  /- 192 -/ ⟨b!"mk", none, none, b!"Macedonian", some b!"Македонски"⟩,
  /- 193 -/ ⟨b!"mk", some b!"MK", none, b!"Macedonian (Macedonia)", none⟩,
  /- 194 -/ ⟨b!"ml", none, none, b!"Malayalam", some b!"മലയാളം"⟩,
  /- 195 -/ ⟨b!"mn", none, none, b!"Mongolian", some b!"Монгол"⟩,
  /- 196 -/ ⟨b!"mr", none, none, b!"Marathi", some b!"मराठी"⟩,
  /- 197 -/ ⟨b!"ms", none, none, b!"Malay", some b!"Bahasa Melayu"⟩,
  /- 198 -/ ⟨b!"ms", some b!"MY", none, b!"Malay (Malaysia)", none⟩,
  /- 199 -/ ⟨b!"mt", none, none, b!"Maltese", some b!"Malti"⟩,
  /- 200 -/ ⟨b!"my", none, none, b!"Burmese", some b!"မြန်မာဘာသာ"⟩,
  /- 201 -/ ⟨b!"my", some b!"MM", none, b!"Burmese (Myanmar)", none⟩,
  /- 202 -/ ⟨b!"nb", none, none, b!"Norwegian Bokmal", none⟩,
  /- 203 -/ ⟨b!"nb", some b!"NO", none, b!"Norwegian Bokmål (Norway)", none⟩,
  /- 204 -/ ⟨b!"nds", none, none, b!"Low German", none⟩,
  /- 205 -/ ⟨b!"ne", none, none, b!"Nepali", none⟩,
  /- 206 -/ ⟨b!"nl", none, none, b!"Dutch", some b!"Nederlands"⟩,
  /- 207 -/ ⟨b!"nl", some b!"BE", none, b!"Dutch (Belgium)", none⟩,
  /- 208 -/ ⟨b!"nl", some b!"NL", none, b!"Dutch (Netherlands)", none⟩,
  /- 209 -/ ⟨b!"nn", none, none, b!"Norwegian Nynorsk", some b!"Norsk nynorsk"⟩,
  /- 210 -/ ⟨b!"nn", some b!"NO", none, b!"Norwegian Nynorsk (Norway)", none⟩,
  /- 211 -/ ⟨b!"no", none, none, b!"Norwegian", some b!"Norsk bokmål"⟩,
  /- 212 -/ ⟨b!"no", some b!"NO", none, b!"Norwegian (Norway)", none⟩,
  /- 213 -/ ⟨b!"no", some b!"NY", none, b!"Norwegian (NY)", none⟩,
  /- 214 -/ ⟨b!"nr", none, none, b!"Ndebele, South", none⟩,
  /- 215 -/ ⟨b!"oc", none, none, b!"Occitan post 1500", some b!"Occitan"⟩,
  /- 216 -/ ⟨b!"om", none, none, b!"Oromo", some b!"Oromoo"⟩,
  /- 217 -/ ⟨b!"or", none, none, b!"Oriya", some b!"ଓଡ଼ିଆ"⟩,
  /- 218 -/ ⟨b!"pa", none, none, b!"Punjabi", some b!"ਪੰਜਾਬੀ"⟩,
  /- 219 -/ ⟨b!"pl", none, none, b!"Polish", some b!"Polski"⟩,
  /- 220 -/ ⟨b!"pl", some b!"PL", none, b!"Polish (Poland)", none⟩,
  /- 221 -/ ⟨b!"ps", none, none, b!"Pashto", some b!"پښتو"⟩,
  /- 222 -/ ⟨b!"pt", none, none, b!"Portuguese", some b!"Português"⟩,
  /- 223 -/ ⟨b!"pt", some b!"BR", none, b!"Portuguese (Brazil)", none⟩,
  /- 224 -/ ⟨b!"pt", some b!"PT", none, b!"Portuguese (Portugal)", none⟩,
  /- 225 -/ ⟨b!"qu", none, none, b!"Quechua", some b!"Runa Simi"⟩,
  /- 226 -/ ⟨b!"rm", none, none, b!"Rhaeto-Romance", some b!"Rumantsch"⟩,
  /- 227 -/ ⟨b!"ro", none, none, b!"Romanian", some b!"Română"⟩,
  /- 228 -/ ⟨b!"ro", some b!"RO", none, b!"Romanian (Romania)", none⟩,
  /- 229 -/ ⟨b!"ru", none, none, b!"Russian", some b!"Русский"⟩,
  /- 230 -/ ⟨b!"ru", some b!"RU", none, b!"Russian (Russia", none⟩,
  /- 231 -/ ⟨b!"rw", none, none, b!"Kinyarwanda", some b!"Kinyarwanda"⟩,
  /- 232 -/ ⟨b!"sa", none, none, b!"Sanskrit", none⟩,
  /- 233 -/ ⟨b!"sd", none, none, b!"Sindhi", none⟩,
  /- 234 -/ ⟨b!"se", none, none, b!"Sami", some b!"Sámegiella"⟩,
  /- 235 -/ ⟨b!"se", some b!"NO", none, b!"Sami (Norway)", none⟩,
  /- 236 -/ ⟨b!"si", none, none, b!"Sinhalese", none⟩,
  /- 237 -/ ⟨b!"sk", none, none, b!"Slovak", some b!"Slovenčina"⟩,
  /- 238 -/ ⟨b!"sk", some b!"SK", none, b!"Slovak (Slovakia)", none⟩,
  /- 239 -/ ⟨b!"sl", none, none, b!"Slovenian", some b!"Slovenščina"⟩,
  /- 240 -/ ⟨b!"sl", some b!"SI", none, b!"Slovenian (Slovenia)", none⟩,
  /- 241 -/ ⟨b!"sl", some b!"SL", none, b!"Slovenian (Sierra Leone)", none⟩,
  /- 242 -/ ⟨b!"sm", none, none, b!"Samoan", none⟩,
  /- 243 -/ ⟨b!"so", none, none, b!"Somali", none⟩,
  /- 244 -/ ⟨b!"sp", none, none, b!"Unknown language", none⟩,
  /- 245 -/ ⟨b!"sq", none, none, b!"Albanian", some b!"Shqip"⟩,
  /- 246 -/ ⟨b!"sq", some b!"AL", none, b!"Albanian (Albania)", none⟩,
  /- 247 -/ ⟨b!"sr", none, none, b!"Serbian", some b!"Српски / srpski"⟩,
  /- 248 -/ ⟨b!"sr", some b!"YU", none, b!"Serbian (Yugoslavia)", none⟩,
  /- 249 -/ ⟨b!"sr", none, some b!"ije", b!"Serbian", none⟩,
  /- 250 -/ ⟨b!"sr", none, some b!"latin", b!"Serbian", none⟩,
  /- 251 -/ ⟨b!"sr", none, some b!"Latn", b!"Serbian", none⟩,
  /- 252 -/ ⟨b!"ss", none, none, b!"Swati", none⟩,
  /- 253 -/ ⟨b!"st", none, none, b!"Sotho", none⟩,
  /- 254 -/ ⟨b!"sv", none, none, b!"Swedish", some b!"Svenska"⟩,
  /- 255 -/ ⟨b!"sv", some b!"SE", none, b!"Swedish (Sweden)", none⟩,
  /- 256 -/ ⟨b!"sv", some b!"SV", none, b!"Swedish (El Salvador)", none⟩,
  /- 257 -/ ⟨b!"sw", none, none, b!"Swahili", none⟩,
  /- 258 -/ ⟨b!"ta", none, none, b!"Tamil", none⟩,
  /- 259 -/ ⟨b!"te", none, none, b!"Telugu", none⟩,
  /- 260 -/ ⟨b!"tg", none, none, b!"Tajik", none⟩,
  /- 261 -/ ⟨b!"th", none, none, b!"Thai", some b!"ไทย"⟩,
  /- 262 -/ ⟨b!"th", some b!"TH", none, b!"Thai (Thailand)", none⟩,
  /- 263 -/ ⟨b!"ti", none, none, b!"Tigrinya", none⟩,
  /- 264 -/ ⟨b!"tk", none, none, b!"Turkmen", none⟩,
  /- 265 -/ ⟨b!"tl", none, none, b!"Tagalog", none⟩,
  /- 266 -/ ⟨b!"to", none, none, b!"Tonga", none⟩,
  /- 267 -/ ⟨b!"tr", none, none, b!"Turkish", some b!"Türkçe"⟩,
  /- 268 -/ ⟨b!"tr", some b!"TR", none, b!"Turkish (Turkey)", none⟩,
  /- 269 -/ ⟨b!"ts", none, none, b!"Tsonga", none⟩,
  /- 270 -/ ⟨b!"tt", none, none, b!"Tatar", none⟩,
  /- 271 -/ ⟨b!"ug", none, none, b!"Uighur", none⟩,
  /- 272 -/ ⟨b!"uk", none, none, b!"Ukrainian", some b!"Українська"⟩,
  /- 273 -/ ⟨b!"uk", some b!"UA", none, b!"Ukrainian (Ukraine)", none⟩,
  /- 274 -/ ⟨b!"ur", none, none, b!"Urdu", none⟩,
  /- 275 -/ ⟨b!"ur", some b!"PK", none, b!"Urdu (Pakistan)", none⟩,
  /- 276 -/ ⟨b!"uz", none, none, b!"Uzbek", none⟩,
  /- 277 -/ ⟨b!"uz", none, some b!"cyrillic", b!"Uzbek", none⟩,
  /- 278 -/ ⟨b!"vi", none, none, b!"Vietnamese", some b!"Tiếng Việt"⟩,
  /- 279 -/ ⟨b!"vi", some b!"VN", none, b!"Vietnamese (Vietnam)", none⟩,
  /- 280 -/ ⟨b!"wa", none, none, b!"Walloon", none⟩,
  /- 281 -/ ⟨b!"wo", none, none, b!"Wolof", none⟩,
  /- 282 -/ ⟨b!"xh", none, none, b!"Xhosa", none⟩,
  /- 283 -/ ⟨b!"yi", none, none, b!"Yiddish", some b!"ייִדיש"⟩,
  /- 284 -/ ⟨b!"yo", none, none, b!"Yoruba", none⟩,
  /- 285 -/ ⟨b!"zh", none, none, b!"Chinese", some b!"中文"⟩,
  /- 286 -/ ⟨b!"zh", some b!"CN", none, b!"Chinese (simplified)", some b!"中文 (简体)"⟩,
  /- 287 -/ ⟨b!"zh", some b!"HK", none, b!"Chinese (Hong Kong)", some b!"中文 (香港)"⟩,
  /- 288 -/ ⟨b!"zh", some b!"TW", none, b!"Chinese (traditional)", some b!"中文 (繁體)"⟩,
  /- 289 -/ ⟨b!"zu", none, none, b!"Zulu", none⟩
]

/-- `language_aliases` (src/language.cpp:309-355), in source order. -/
def languageAliases : List (Str × Str) := [
  /- 309 -/ (b!"bokmal", b!"nb_NO.ISO-8859-1"),
  /- 310 -/ (b!"bokmål", b!"nb_NO.ISO-8859-1"),
  /- 311 -/ (b!"catalan", b!"ca_ES.ISO-8859-1"),
  /- 312 -/ (b!"croatian", b!"hr_HR.ISO-8859-2"),
  /- 313 -/ (b!"czech", b!"cs_CZ.ISO-8859-2"),
  /- 314 -/ (b!"danish", b!"da_DK.ISO-8859-1"),
  /- 315 -/ (b!"dansk", b!"da_DK.ISO-8859-1"),
  /- 316 -/ (b!"deutsch", b!"de_DE.ISO-8859-1"),
  /- 317 -/ (b!"dutch", b!"nl_NL.ISO-8859-1"),
  /- 318 -/ (b!"eesti", b!"et_EE.ISO-8859-1"),
  /- 319 -/ (b!"estonian", b!"et_EE.ISO-8859-1"),
  /- 320 -/ (b!"finnish", b!"fi_FI.ISO-8859-1"),
  /- 321 -/ (b!"français", b!"fr_FR.ISO-8859-1"),
  /- 322 -/ (b!"french", b!"fr_FR.ISO-8859-1"),
  /- 323 -/ (b!"galego", b!"gl_ES.ISO-8859-1"),
  /- 324 -/ (b!"galician", b!"gl_ES.ISO-8859-1"),
  /- 325 -/ (b!"german", b!"de_DE.ISO-8859-1"),
  /- 326 -/ (b!"greek", b!"el_GR.ISO-8859-7"),
  /- 327 -/ (b!"hebrew", b!"he_IL.ISO-8859-8"),
  /- 328 -/ (b!"hrvatski", b!"hr_HR.ISO-8859-2"),
  /- 329 -/ (b!"hungarian", b!"hu_HU.ISO-8859-2"),
  /- 330 -/ (b!"icelandic", b!"is_IS.ISO-8859-1"),
  /- 331 -/ (b!"italian", b!"it_IT.ISO-8859-1"),
  /- 332 -/ (b!"japanese", b!"ja_JP.eucJP"),
  /- 333 -/ (b!"japanese.euc", b!"ja_JP.eucJP"),
  /- 334 -/ (b!"ja_JP", b!"ja_JP.eucJP"),
  /- 335 -/ (b!"ja_JP.ujis", b!"ja_JP.eucJP"),
  /- 336 -/ (b!"japanese.sjis", b!"ja_JP.SJIS"),
  /- 337 -/ (b!"korean", b!"ko_KR.eucKR"),
  /- 338 -/ (b!"korean.euc", b!"ko_KR.eucKR"),
  /- 339 -/ (b!"ko_KR", b!"ko_KR.eucKR"),
  /- 340 -/ (b!"lithuanian", b!"lt_LT.ISO-8859-13"),
  /- 341 -/ (b!"no_NO", b!"nb_NO.ISO-8859-1"),
  /- 342 -/ (b!"no_NO.ISO-8859-1", b!"nb_NO.ISO-8859-1"),
  /- 343 -/ (b!"norwegian", b!"nb_NO.ISO-8859-1"),
  /- 344 -/ (b!"nynorsk", b!"nn_NO.ISO-8859-1"),
  /- 345 -/ (b!"polish", b!"pl_PL.ISO-8859-2"),
  /- 346 -/ (b!"portuguese", b!"pt_PT.ISO-8859-1"),
  /- 347 -/ (b!"romanian", b!"ro_RO.ISO-8859-2"),
  /- 348 -/ (b!"russian", b!"ru_RU.ISO-8859-5"),
  /- 349 -/ (b!"slovak", b!"sk_SK.ISO-8859-2"),
  /- 350 -/ (b!"slovene", b!"sl_SI.ISO-8859-2"),
  /- 351 -/ (b!"slovenian", b!"sl_SI.ISO-8859-2"),
  /- 352 -/ (b!"spanish", b!"es_ES.ISO-8859-1"),
  /- 353 -/ (b!"swedish", b!"sv_SE.ISO-8859-1"),
  /- 354 -/ (b!"thai", b!"th_TH.TIS-620"),
  /- 355 -/ (b!"turkish", b!"tr_TR.ISO-8859-9")
]

end Tgt
