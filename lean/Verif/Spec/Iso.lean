/-!
What the standards say: names of countries (ISO 3166-1) and decimals of currencies (ISO 4217). Written independently of the library.
-/
namespace Esl.Names.Spec

/-- For each country, a text that occurs in its name and tells it apart. -/
def keywords : List (String × String) := [
  ("AD", "Andorra"), ("AE", "Emirates"), ("AF", "Afghanistan"), ("AG", "Antigua"), ("AI", "Anguilla"), ("AL", "Albania"), ("AM", "Armenia"), ("AO", "Angola"), ("AQ", "Antarctica"),
  ("AR", "Argentina"), ("AS", "American Samoa"), ("AT", "Austria"), ("AU", "Australia"), ("AW", "Aruba"), ("AX", "land Islands"), ("AZ", "Azerbaijan"), ("BA", "Bosnia"), ("BB", "Barbados"),
  ("BD", "Bangladesh"), ("BE", "Belgium"), ("BF", "Burkina Faso"), ("BG", "Bulgaria"), ("BH", "Bahrain"), ("BI", "Burundi"), ("BJ", "Benin"), ("BL", "Saint Barth"), ("BM", "Bermuda"),
  ("BN", "Brunei"), ("BO", "Bolivia"), ("BQ", "Bonaire"), ("BR", "Brazil"), ("BS", "Bahamas"), ("BT", "Bhutan"), ("BV", "Bouvet"), ("BW", "Botswana"), ("BY", "Belarus"), ("BZ", "Belize"),
  ("CA", "Canada"), ("CC", "Cocos"), ("CD", "Democratic Republic of the Congo"), ("CF", "Central African Republic"), ("CG", "Congo"), ("CH", "Switzerland"), ("CI", "Ivoire"),
  ("CK", "Cook Islands"), ("CL", "Chile"), ("CM", "Cameroon"), ("CN", "China"), ("CO", "Colombia"), ("CR", "Costa Rica"), ("CU", "Cuba"), ("CV", "Verde"), ("CW", "Cura"),
  ("CX", "Christmas Island"), ("CY", "Cyprus"), ("CZ", "Czech"), ("DE", "Germany"), ("DJ", "Djibouti"), ("DK", "Denmark"), ("DM", "Dominica"), ("DO", "Dominican Republic"),
  ("DZ", "Algeria"), ("EC", "Ecuador"), ("EE", "Estonia"), ("EG", "Egypt"), ("EH", "Western Sahara"), ("ER", "Eritrea"), ("ES", "Spain"), ("ET", "Ethiopia"), ("FI", "Finland"),
  ("FJ", "Fiji"), ("FK", "Falkland Islands"), ("FM", "Micronesia"), ("FO", "Faroe Islands"), ("FR", "France"), ("GA", "Gabon"), ("GB", "United Kingdom"), ("GD", "Grenada"),
  ("GE", "Georgia"), ("GF", "French Guiana"), ("GG", "Guernsey"), ("GH", "Ghana"), ("GI", "Gibraltar"), ("GL", "Greenland"), ("GM", "Gambia"), ("GN", "Guinea"), ("GP", "Guadeloupe"),
  ("GQ", "Equatorial Guinea"), ("GR", "Greece"), ("GS", "South Georgia"), ("GT", "Guatemala"), ("GU", "Guam"), ("GW", "Guinea-Bissau"), ("GY", "Guyana"), ("HK", "Hong Kong"),
  ("HM", "Heard Island"), ("HN", "Honduras"), ("HR", "Croatia"), ("HT", "Haiti"), ("HU", "Hungary"), ("ID", "Indonesia"), ("IE", "Ireland"), ("IL", "Israel"), ("IM", "Isle of Man"),
  ("IN", "India"), ("IO", "British Indian Ocean"), ("IQ", "Iraq"), ("IR", "Iran"), ("IS", "Iceland"), ("IT", "Italy"), ("JE", "Jersey"), ("JM", "Jamaica"), ("JO", "Jordan"),
  ("JP", "Japan"), ("KE", "Kenya"), ("KG", "Kyrgyzstan"), ("KH", "Cambodia"), ("KI", "Kiribati"), ("KM", "Comoros"), ("KN", "Kitts and Nevis"),
  ("KP", "Democratic People's Republic of Korea"), ("KR", "Republic of Korea"), ("KW", "Kuwait"), ("KY", "Cayman"), ("KZ", "Kazakhstan"), ("LA", "Lao"), ("LB", "Lebanon"), ("LC", "Lucia"),
  ("LI", "Liechtenstein"), ("LK", "Sri Lanka"), ("LR", "Liberia"), ("LS", "Lesotho"), ("LT", "Lithuania"), ("LU", "Luxembourg"), ("LV", "Latvia"), ("LY", "Libya"), ("MA", "Morocco"),
  ("MC", "Monaco"), ("MD", "Moldova"), ("ME", "Montenegro"), ("MF", "Saint Martin"), ("MG", "Madagascar"), ("MH", "Marshall Islands"), ("MK", "Macedonia"), ("ML", "Mali"),
  ("MM", "Myanmar"), ("MN", "Mongolia"), ("MO", "Macao"), ("MP", "Northern Mariana"), ("MQ", "Martinique"), ("MR", "Mauritania"), ("MS", "Montserrat"), ("MT", "Malta"), ("MU", "Mauritius"),
  ("MV", "Maldives"), ("MW", "Malawi"), ("MX", "Mexico"), ("MY", "Malaysia"), ("MZ", "Mozambique"), ("NA", "Namibia"), ("NC", "New Caledonia"), ("NE", "Niger"), ("NF", "Norfolk Island"),
  ("NG", "Nigeria"), ("NI", "Nicaragua"), ("NL", "Netherlands"), ("NO", "Norway"), ("NP", "Nepal"), ("NR", "Nauru"), ("NU", "Niue"), ("NZ", "New Zealand"), ("OM", "Oman"), ("PA", "Panama"),
  ("PE", "Peru"), ("PF", "French Polynesia"), ("PG", "Papua New Guinea"), ("PH", "Philippines"), ("PK", "Pakistan"), ("PL", "Poland"), ("PM", "Pierre and Miquelon"), ("PN", "Pitcairn"),
  ("PR", "Puerto Rico"), ("PS", "Palestine"), ("PT", "Portugal"), ("PW", "Palau"), ("PY", "Paraguay"), ("QA", "Qatar"), ("RE", "union"), ("RO", "Romania"), ("RS", "Serbia"),
  ("RU", "Russia"), ("RW", "Rwanda"), ("SA", "Saudi Arabia"), ("SB", "Solomon Islands"), ("SC", "Seychelles"), ("SD", "Sudan"), ("SE", "Sweden"), ("SG", "Singapore"),
  ("SH", "Saint Helena"), ("SI", "Slovenia"), ("SJ", "Svalbard"), ("SK", "Slovakia"), ("SL", "Sierra Leone"), ("SM", "San Marino"), ("SN", "Senegal"), ("SO", "Somalia"), ("SR", "Suriname"),
  ("SS", "South Sudan"), ("ST", "Tome and Principe"), ("SV", "El Salvador"), ("SX", "Sint Maarten"), ("SY", "Syria"), ("SZ", "Swaziland"), ("TC", "Turks and Caicos"), ("TD", "Chad"),
  ("TF", "French Southern Territories"), ("TG", "Togo"), ("TH", "Thailand"), ("TJ", "Tajikistan"), ("TK", "Tokelau"), ("TL", "Timor"), ("TM", "Turkmenistan"), ("TN", "Tunisia"),
  ("TO", "Tonga"), ("TR", "Turkey"), ("TT", "Trinidad and Tobago"), ("TV", "Tuvalu"), ("TW", "Taiwan"), ("TZ", "Tanzania"), ("UA", "Ukraine"), ("UG", "Uganda"),
  ("UM", "Minor Outlying Islands"), ("US", "United States of America"), ("UY", "Uruguay"), ("UZ", "Uzbekistan"), ("VA", "Holy See"), ("VC", "Vincent and the Grenadines"),
  ("VE", "Venezuela"), ("VG", "British Virgin Islands"), ("VI", "U.S. Virgin Islands"), ("VN", "Viet Nam"), ("VU", "Vanuatu"), ("WF", "Wallis"), ("WS", "Samoa"), ("YE", "Yemen"),
  ("YT", "Mayotte"), ("ZA", "South Africa"), ("ZM", "Zambia"), ("ZW", "Zimbabwe")]

/-- Currencies whose smallest unit is the currency itself. -/
def noDecimals : List String := ["BIF", "CLP", "DJF", "GNF", "ISK", "JPY", "KMF", "KRW", "PYG", "RWF", "UGX", "UYI", "VND", "VUV", "XAF", "XOF", "XPF"]

/-- Currencies with thousandths. -/
def threeDecimals : List String := ["BHD", "IQD", "JOD", "KWD", "LYD", "OMR", "TND"]

/-- Currencies with ten-thousandths. -/
def fourDecimals : List String := ["CLF", "UYW"]

/-- Codes for metals, bond market units and other units, which have no smallest unit. -/
def undivided : List String := ["XAG", "XAU", "XBA", "XBB", "XBC", "XBD", "XDR", "XPD", "XPT", "XSU", "XTS", "XUA", "XXX"]

/-- How many of the smallest unit make one unit of the currency; all other currencies have hundredths. -/
def unitsOf (c : String) : Option Nat :=
  if c ∈ undivided then none else if c ∈ noDecimals then some 1 else if c ∈ threeDecimals then some 1000 else if c ∈ fourDecimals then some 10000 else some 100

/-- Currencies that are used outside of the country whose code they begin with: the franc zones, the East Caribbean, the euro area, and others. -/
def shared : List (String × List String) := [
  ("EUR", ["AD", "AT", "AX", "BE", "BL", "CY", "DE", "EE", "ES", "FI", "FR", "GF", "GP", "GR", "IE", "IT", "LT", "LU", "LV", "MC", "ME", "MF", "MQ", "MT", "NL", "PM", "PT", "RE", "SI", "SK", "SM", "TF", "VA", "YT"]),
  ("USD", ["AS", "BQ", "EC", "FM", "GU", "IO", "MH", "MP", "PR", "PW", "TC", "TL", "UM", "VG", "VI"]),
  ("XOF", ["BF", "BJ", "CI", "GW", "ML", "NE", "SN", "TG"]), ("XAF", ["CF", "CG", "CM", "GA", "GQ", "TD"]), ("XPF", ["NC", "PF", "WF"]),
  ("XCD", ["AG", "AI", "DM", "GD", "KN", "LC", "MS", "VC"]), ("AUD", ["CC", "CX", "HM", "KI", "NF", "NR", "TV"]), ("NZD", ["CK", "NU", "PN", "TK"]),
  ("GBP", ["GG", "GS", "IM", "JE"]), ("DKK", ["FO", "GL"]), ("NOK", ["BV", "SJ"]), ("ANG", ["CW", "SX"]), ("CHF", ["LI"]), ("MAD", ["EH"]), ("ILS", ["PS"])]

end Esl.Names.Spec
