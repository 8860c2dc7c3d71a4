import Verif.Model.Codes
/-!
The tables of countries and currencies, and the functions that look names up in them: `esl/geography/countries.hpp` and `esl/economics/currencies.hpp`.

The tables are generated from the source files. Texts are their bytes (UTF-8).
-/
namespace Esl.Names
open Esl.Codes

/-- countries.hpp:39-288: the codes of the constants in `countries`. -/
def countries : List (List Nat) := [
  [65, 68], [65, 69], [65, 70], [65, 71], [65, 73], [65, 76], [65, 77], [65, 79], [65, 81], [65, 82], [65, 83], [65, 84],
  [65, 85], [65, 87], [65, 88], [65, 90], [66, 65], [66, 66], [66, 68], [66, 69], [66, 70], [66, 71], [66, 72], [66, 73],
  [66, 74], [66, 76], [66, 77], [66, 78], [66, 79], [66, 81], [66, 82], [66, 83], [66, 84], [66, 86], [66, 87], [66, 89],
  [66, 90], [67, 65], [67, 67], [67, 68], [67, 70], [67, 71], [67, 72], [67, 73], [67, 75], [67, 76], [67, 77], [67, 78],
  [67, 79], [67, 82], [67, 85], [67, 86], [67, 87], [67, 88], [67, 89], [67, 90], [68, 69], [68, 74], [68, 75], [68, 77],
  [68, 79], [68, 90], [69, 67], [69, 69], [69, 71], [69, 72], [69, 82], [69, 83], [69, 84], [70, 73], [70, 74], [70, 75],
  [70, 77], [70, 79], [70, 82], [71, 65], [71, 66], [71, 68], [71, 69], [71, 70], [71, 71], [71, 72], [71, 73], [71, 76],
  [71, 77], [71, 78], [71, 80], [71, 81], [71, 82], [71, 83], [71, 84], [71, 85], [71, 87], [71, 89], [72, 75], [72, 77],
  [72, 78], [72, 82], [72, 84], [72, 85], [73, 68], [73, 69], [73, 76], [73, 77], [73, 78], [73, 79], [73, 81], [73, 82],
  [73, 83], [73, 84], [74, 69], [74, 77], [74, 79], [74, 80], [75, 69], [75, 71], [75, 72], [75, 73], [75, 77], [75, 78],
  [75, 80], [75, 82], [75, 87], [75, 89], [75, 90], [76, 65], [76, 66], [76, 67], [76, 73], [76, 75], [76, 82], [76, 83],
  [76, 84], [76, 85], [76, 86], [76, 89], [77, 65], [77, 67], [77, 68], [77, 69], [77, 70], [77, 71], [77, 72], [77, 75],
  [77, 76], [77, 77], [77, 78], [77, 79], [77, 80], [77, 81], [77, 82], [77, 83], [77, 84], [77, 85], [77, 86], [77, 87],
  [77, 88], [77, 89], [77, 90], [78, 65], [78, 67], [78, 69], [78, 70], [78, 71], [78, 73], [78, 76], [78, 79], [78, 80],
  [78, 82], [78, 85], [78, 90], [79, 77], [80, 65], [80, 69], [80, 70], [80, 71], [80, 72], [80, 75], [80, 76], [80, 77],
  [80, 78], [80, 82], [80, 83], [80, 84], [80, 87], [80, 89], [81, 65], [82, 69], [82, 79], [82, 83], [82, 85], [82, 87],
  [83, 65], [83, 66], [83, 67], [83, 68], [83, 69], [83, 71], [83, 72], [83, 73], [83, 74], [83, 75], [83, 76], [83, 77],
  [83, 78], [83, 79], [83, 82], [83, 83], [83, 84], [83, 86], [83, 88], [83, 89], [83, 90], [84, 67], [84, 68], [84, 70],
  [84, 71], [84, 72], [84, 74], [84, 75], [84, 76], [84, 77], [84, 78], [84, 79], [84, 82], [84, 84], [84, 86], [84, 87],
  [84, 90], [85, 65], [85, 71], [85, 77], [85, 83], [85, 89], [85, 90], [86, 65], [86, 67], [86, 69], [86, 71], [86, 73],
  [86, 78], [86, 85], [87, 70], [87, 83], [89, 69], [89, 84], [90, 65], [90, 77], [90, 87]]

/-- countries.hpp:305-800: the cases of `country_name`, with the code in the `case` and the text that is returned. -/
def countryNames : List (List Nat × List Nat) := [
  ([65, 69], [85, 110, 105, 116, 101, 100, 32, 65, 114, 97, 98, 32, 69, 109, 105, 114, 97, 116, 101, 115]), -- AE United Arab Emirates
  ([65, 70], [65, 102, 103, 104, 97, 110, 105, 115, 116, 97, 110]), -- AF Afghanistan
  ([65, 71], [65, 110, 116, 105, 103, 117, 97, 32, 97, 110, 100, 32, 66, 97, 114, 98, 117, 100, 97]), -- AG Antigua and Barbuda
  ([65, 73], [65, 110, 103, 117, 105, 108, 108, 97]), -- AI Anguilla
  ([65, 76], [65, 108, 98, 97, 110, 105, 97]), -- AL Albania
  ([65, 77], [65, 114, 109, 101, 110, 105, 97]), -- AM Armenia
  ([65, 79], [65, 110, 103, 111, 108, 97]), -- AO Angola
  ([65, 81], [65, 110, 116, 97, 114, 99, 116, 105, 99, 97]), -- AQ Antarctica
  ([65, 82], [65, 114, 103, 101, 110, 116, 105, 110, 97]), -- AR Argentina
  ([65, 83], [65, 109, 101, 114, 105, 99, 97, 110, 32, 83, 97, 109, 111, 97]), -- AS American Samoa
  ([65, 84], [65, 117, 115, 116, 114, 105, 97]), -- AT Austria
  ([65, 85], [65, 117, 115, 116, 114, 97, 108, 105, 97]), -- AU Australia
  ([65, 87], [65, 114, 117, 98, 97]), -- AW Aruba
  ([65, 88], [195, 133, 108, 97, 110, 100, 32, 73, 115, 108, 97, 110, 100, 115]), -- AX Åland Islands
  ([65, 90], [65, 122, 101, 114, 98, 97, 105, 106, 97, 110]), -- AZ Azerbaijan
  ([66, 65], [66, 111, 115, 110, 105, 97, 32, 97, 110, 100, 32, 72, 101, 114, 122, 101, 103, 111, 118, 105, 110, 97]), -- BA Bosnia and Herzegovina
  ([66, 66], [66, 97, 114, 98, 97, 100, 111, 115]), -- BB Barbados
  ([66, 68], [66, 97, 110, 103, 108, 97, 100, 101, 115, 104]), -- BD Bangladesh
  ([66, 69], [66, 101, 108, 103, 105, 117, 109]), -- BE Belgium
  ([66, 70], [66, 117, 114, 107, 105, 110, 97, 32, 70, 97, 115, 111]), -- BF Burkina Faso
  ([66, 71], [66, 117, 108, 103, 97, 114, 105, 97]), -- BG Bulgaria
  ([66, 72], [66, 97, 104, 114, 97, 105, 110]), -- BH Bahrain
  ([66, 73], [66, 117, 114, 117, 110, 100, 105]), -- BI Burundi
  ([66, 74], [66, 101, 110, 105, 110]), -- BJ Benin
  ([66, 76], [83, 97, 105, 110, 116, 32, 66, 97, 114, 116, 104, 195, 169, 108, 101, 109, 121]), -- BL Saint Barthélemy
  ([66, 77], [66, 101, 114, 109, 117, 100, 97]), -- BM Bermuda
  ([66, 78], [66, 114, 117, 110, 101, 105, 32, 68, 97, 114, 117, 115, 115, 97, 108, 97, 109]), -- BN Brunei Darussalam
  ([66, 79], [80, 108, 117, 114, 105, 110, 97, 116, 105, 111, 110, 97, 108, 32, 83, 116, 97, 116, 101, 32, 111, 102, 32, 66, 111, 108, 105, 118, 105, 97]), -- BO Plurinational State of Bolivia
  ([66, 81], [66, 111, 110, 97, 105, 114, 101, 44, 32, 83, 105, 110, 116, 32, 69, 117, 115, 116, 97, 116, 105, 117, 115, 32, 97, 110, 100, 32, 83, 97, 98, 97]), -- BQ Bonaire, Sint Eustatius and Saba
  ([66, 82], [66, 114, 97, 122, 105, 108]), -- BR Brazil
  ([66, 83], [66, 97, 104, 97, 109, 97, 115]), -- BS Bahamas
  ([66, 84], [66, 104, 117, 116, 97, 110]), -- BT Bhutan
  ([66, 86], [66, 111, 117, 118, 101, 116, 32, 73, 115, 108, 97, 110, 100]), -- BV Bouvet Island
  ([66, 87], [66, 111, 116, 115, 119, 97, 110, 97]), -- BW Botswana
  ([66, 89], [66, 101, 108, 97, 114, 117, 115]), -- BY Belarus
  ([66, 90], [66, 101, 108, 105, 122, 101]), -- BZ Belize
  ([67, 65], [67, 97, 110, 97, 100, 97]), -- CA Canada
  ([67, 67], [67, 111, 99, 111, 115, 32, 40, 75, 101, 101, 108, 105, 110, 103, 41, 32, 73, 115, 108, 97, 110, 100, 115]), -- CC Cocos (Keeling) Islands
  ([67, 68], [116, 104, 101, 32, 68, 101, 109, 111, 99, 114, 97, 116, 105, 99, 32, 82, 101, 112, 117, 98, 108, 105, 99, 32, 111, 102, 32, 116, 104, 101, 32, 67, 111, 110, 103, 111]), -- CD the Democratic Republic of the Congo
  ([67, 70], [67, 101, 110, 116, 114, 97, 108, 32, 65, 102, 114, 105, 99, 97, 110, 32, 82, 101, 112, 117, 98, 108, 105, 99]), -- CF Central African Republic
  ([67, 71], [67, 111, 110, 103, 111]), -- CG Congo
  ([67, 72], [83, 119, 105, 116, 122, 101, 114, 108, 97, 110, 100]), -- CH Switzerland
  ([67, 73], [67, 195, 180, 116, 101, 32, 100, 39, 73, 118, 111, 105, 114, 101]), -- CI Côte d'Ivoire
  ([67, 75], [67, 111, 111, 107, 32, 73, 115, 108, 97, 110, 100, 115]), -- CK Cook Islands
  ([67, 76], [67, 104, 105, 108, 101]), -- CL Chile
  ([67, 77], [67, 97, 109, 101, 114, 111, 111, 110]), -- CM Cameroon
  ([67, 78], [67, 104, 105, 110, 97]), -- CN China
  ([67, 79], [67, 111, 108, 111, 109, 98, 105, 97]), -- CO Colombia
  ([67, 82], [67, 111, 115, 116, 97, 32, 82, 105, 99, 97]), -- CR Costa Rica
  ([67, 85], [67, 117, 98, 97]), -- CU Cuba
  ([67, 86], [67, 97, 98, 111, 32, 86, 101, 114, 100, 101]), -- CV Cabo Verde
  ([67, 87], [67, 117, 114, 97, 195, 167, 97, 111]), -- CW Curaçao
  ([67, 88], [67, 104, 114, 105, 115, 116, 109, 97, 115, 32, 73, 115, 108, 97, 110, 100]), -- CX Christmas Island
  ([67, 89], [67, 121, 112, 114, 117, 115]), -- CY Cyprus
  ([67, 90], [67, 122, 101, 99, 104, 105, 97]), -- CZ Czechia
  ([68, 69], [71, 101, 114, 109, 97, 110, 121]), -- DE Germany
  ([68, 74], [68, 106, 105, 98, 111, 117, 116, 105]), -- DJ Djibouti
  ([68, 75], [68, 101, 110, 109, 97, 114, 107]), -- DK Denmark
  ([68, 77], [68, 111, 109, 105, 110, 105, 99, 97]), -- DM Dominica
  ([68, 79], [68, 111, 109, 105, 110, 105, 99, 97, 110, 32, 82, 101, 112, 117, 98, 108, 105, 99]), -- DO Dominican Republic
  ([68, 90], [65, 108, 103, 101, 114, 105, 97]), -- DZ Algeria
  ([69, 67], [69, 99, 117, 97, 100, 111, 114]), -- EC Ecuador
  ([69, 69], [69, 115, 116, 111, 110, 105, 97]), -- EE Estonia
  ([69, 71], [69, 103, 121, 112, 116]), -- EG Egypt
  ([69, 72], [87, 101, 115, 116, 101, 114, 110, 32, 83, 97, 104, 97, 114, 97]), -- EH Western Sahara
  ([69, 82], [69, 114, 105, 116, 114, 101, 97]), -- ER Eritrea
  ([69, 83], [83, 112, 97, 105, 110]), -- ES Spain
  ([69, 84], [69, 116, 104, 105, 111, 112, 105, 97]), -- ET Ethiopia
  ([70, 73], [70, 105, 110, 108, 97, 110, 100]), -- FI Finland
  ([70, 74], [70, 105, 106, 105]), -- FJ Fiji
  ([70, 75], [70, 97, 108, 107, 108, 97, 110, 100, 32, 73, 115, 108, 97, 110, 100, 115, 32, 40, 77, 97, 108, 118, 105, 110, 97, 115, 41]), -- FK Falkland Islands (Malvinas)
  ([70, 77], [70, 101, 100, 101, 114, 97, 116, 101, 100, 32, 83, 116, 97, 116, 101, 115, 32, 111, 102, 32, 77, 105, 99, 114, 111, 110, 101, 115, 105, 97]), -- FM Federated States of Micronesia
  ([70, 79], [70, 97, 114, 111, 101, 32, 73, 115, 108, 97, 110, 100, 115]), -- FO Faroe Islands
  ([70, 82], [70, 114, 97, 110, 99, 101]), -- FR France
  ([71, 65], [71, 97, 98, 111, 110]), -- GA Gabon
  ([71, 66], [85, 110, 105, 116, 101, 100, 32, 75, 105, 110, 103, 100, 111, 109, 32, 111, 102, 32, 71, 114, 101, 97, 116, 32, 66, 114, 105, 116, 97, 105, 110, 32, 97, 110, 100, 32, 78, 111, 114, 116, 104, 101, 114, 110, 32, 73, 114, 101, 108, 97, 110, 100]), -- GB United Kingdom of Great Britain and Northern Ireland
  ([71, 68], [71, 114, 101, 110, 97, 100, 97]), -- GD Grenada
  ([71, 69], [71, 101, 111, 114, 103, 105, 97]), -- GE Georgia
  ([71, 70], [70, 114, 101, 110, 99, 104, 32, 71, 117, 105, 97, 110, 97]), -- GF French Guiana
  ([71, 71], [71, 117, 101, 114, 110, 115, 101, 121]), -- GG Guernsey
  ([71, 72], [71, 104, 97, 110, 97]), -- GH Ghana
  ([71, 73], [71, 105, 98, 114, 97, 108, 116, 97, 114]), -- GI Gibraltar
  ([71, 76], [71, 114, 101, 101, 110, 108, 97, 110, 100]), -- GL Greenland
  ([71, 77], [71, 97, 109, 98, 105, 97]), -- GM Gambia
  ([71, 78], [71, 117, 105, 110, 101, 97]), -- GN Guinea
  ([71, 80], [71, 117, 97, 100, 101, 108, 111, 117, 112, 101]), -- GP Guadeloupe
  ([71, 81], [69, 113, 117, 97, 116, 111, 114, 105, 97, 108, 32, 71, 117, 105, 110, 101, 97]), -- GQ Equatorial Guinea
  ([71, 82], [71, 114, 101, 101, 99, 101]), -- GR Greece
  ([71, 83], [83, 111, 117, 116, 104, 32, 71, 101, 111, 114, 103, 105, 97, 32, 97, 110, 100, 32, 116, 104, 101, 32, 83, 111, 117, 116, 104, 32, 83, 97, 110, 100, 119, 105, 99, 104, 32, 73, 115, 108, 97, 110, 100, 115]), -- GS South Georgia and the South Sandwich Islands
  ([71, 84], [71, 117, 97, 116, 101, 109, 97, 108, 97]), -- GT Guatemala
  ([71, 85], [71, 117, 97, 109]), -- GU Guam
  ([71, 87], [71, 117, 105, 110, 101, 97, 45, 66, 105, 115, 115, 97, 117]), -- GW Guinea-Bissau
  ([71, 89], [71, 117, 121, 97, 110, 97]), -- GY Guyana
  ([72, 75], [72, 111, 110, 103, 32, 75, 111, 110, 103]), -- HK Hong Kong
  ([72, 77], [72, 101, 97, 114, 100, 32, 73, 115, 108, 97, 110, 100, 32, 97, 110, 100, 32, 77, 99, 68, 111, 110, 97, 108, 100, 32, 73, 115, 108, 97, 110, 100, 115]), -- HM Heard Island and McDonald Islands
  ([72, 78], [72, 111, 110, 100, 117, 114, 97, 115]), -- HN Honduras
  ([72, 82], [67, 114, 111, 97, 116, 105, 97]), -- HR Croatia
  ([72, 84], [72, 97, 105, 116, 105]), -- HT Haiti
  ([72, 85], [72, 117, 110, 103, 97, 114, 121]), -- HU Hungary
  ([73, 68], [73, 110, 100, 111, 110, 101, 115, 105, 97]), -- ID Indonesia
  ([73, 69], [73, 114, 101, 108, 97, 110, 100]), -- IE Ireland
  ([73, 76], [73, 115, 114, 97, 101, 108]), -- IL Israel
  ([73, 77], [73, 115, 108, 101, 32, 111, 102, 32, 77, 97, 110]), -- IM Isle of Man
  ([73, 79], [66, 114, 105, 116, 105, 115, 104, 32, 73, 110, 100, 105, 97, 110, 32, 79, 99, 101, 97, 110, 32, 84, 101, 114, 114, 105, 116, 111, 114, 121]), -- IO British Indian Ocean Territory
  ([73, 81], [73, 114, 97, 113]), -- IQ Iraq
  ([73, 82], [73, 115, 108, 97, 109, 105, 99, 32, 82, 101, 112, 117, 98, 108, 105, 99, 32, 111, 102, 32, 73, 114, 97, 110]), -- IR Islamic Republic of Iran
  ([73, 83], [73, 99, 101, 108, 97, 110, 100]), -- IS Iceland
  ([73, 84], [73, 116, 97, 108, 121]), -- IT Italy
  ([74, 69], [74, 101, 114, 115, 101, 121]), -- JE Jersey
  ([74, 77], [74, 97, 109, 97, 105, 99, 97]), -- JM Jamaica
  ([74, 79], [74, 111, 114, 100, 97, 110]), -- JO Jordan
  ([74, 80], [74, 97, 112, 97, 110]), -- JP Japan
  ([75, 69], [75, 101, 110, 121, 97]), -- KE Kenya
  ([75, 71], [75, 121, 114, 103, 121, 122, 115, 116, 97, 110]), -- KG Kyrgyzstan
  ([75, 72], [67, 97, 109, 98, 111, 100, 105, 97]), -- KH Cambodia
  ([75, 73], [75, 105, 114, 105, 98, 97, 116, 105]), -- KI Kiribati
  ([75, 77], [67, 111, 109, 111, 114, 111, 115]), -- KM Comoros
  ([75, 78], [83, 97, 105, 110, 116, 32, 75, 105, 116, 116, 115, 32, 97, 110, 100, 32, 78, 101, 118, 105, 115]), -- KN Saint Kitts and Nevis
  ([75, 80], [68, 101, 109, 111, 99, 114, 97, 116, 105, 99, 32, 80, 101, 111, 112, 108, 101, 39, 115, 32, 82, 101, 112, 117, 98, 108, 105, 99, 32, 111, 102, 32, 75, 111, 114, 101, 97]), -- KP Democratic People's Republic of Korea
  ([75, 82], [82, 101, 112, 117, 98, 108, 105, 99, 32, 111, 102, 32, 75, 111, 114, 101, 97]), -- KR Republic of Korea
  ([75, 87], [75, 117, 119, 97, 105, 116]), -- KW Kuwait
  ([75, 89], [67, 97, 121, 109, 97, 110, 32, 73, 115, 108, 97, 110, 100, 115]), -- KY Cayman Islands
  ([75, 90], [75, 97, 122, 97, 107, 104, 115, 116, 97, 110]), -- KZ Kazakhstan
  ([76, 65], [76, 97, 111, 32, 80, 101, 111, 112, 108, 101, 39, 115, 32, 68, 101, 109, 111, 99, 114, 97, 116, 105, 99, 32, 82, 101, 112, 117, 98, 108, 105, 99]), -- LA Lao People's Democratic Republic
  ([76, 66], [76, 101, 98, 97, 110, 111, 110]), -- LB Lebanon
  ([76, 67], [83, 97, 105, 110, 116, 32, 76, 117, 99, 105, 97]), -- LC Saint Lucia
  ([76, 73], [76, 105, 101, 99, 104, 116, 101, 110, 115, 116, 101, 105, 110]), -- LI Liechtenstein
  ([76, 75], [83, 114, 105, 32, 76, 97, 110, 107, 97]), -- LK Sri Lanka
  ([76, 82], [76, 105, 98, 101, 114, 105, 97]), -- LR Liberia
  ([76, 83], [76, 101, 115, 111, 116, 104, 111]), -- LS Lesotho
  ([76, 84], [76, 105, 116, 104, 117, 97, 110, 105, 97]), -- LT Lithuania
  ([76, 85], [76, 117, 120, 101, 109, 98, 111, 117, 114, 103]), -- LU Luxembourg
  ([76, 86], [76, 97, 116, 118, 105, 97]), -- LV Latvia
  ([76, 89], [76, 105, 98, 121, 97]), -- LY Libya
  ([77, 65], [77, 111, 114, 111, 99, 99, 111]), -- MA Morocco
  ([77, 67], [77, 111, 110, 97, 99, 111]), -- MC Monaco
  ([77, 68], [82, 101, 112, 117, 98, 108, 105, 99, 32, 111, 102, 32, 77, 111, 108, 100, 111, 118, 97]), -- MD Republic of Moldova
  ([77, 69], [77, 111, 110, 116, 101, 110, 101, 103, 114, 111]), -- ME Montenegro
  ([77, 70], [83, 97, 105, 110, 116, 32, 77, 97, 114, 116, 105, 110, 32, 40, 70, 114, 101, 110, 99, 104, 32, 112, 97, 114, 116, 41]), -- MF Saint Martin (French part)
  ([77, 71], [77, 97, 100, 97, 103, 97, 115, 99, 97, 114]), -- MG Madagascar
  ([77, 72], [77, 97, 114, 115, 104, 97, 108, 108, 32, 73, 115, 108, 97, 110, 100, 115]), -- MH Marshall Islands
  ([77, 75], [116, 104, 101, 32, 102, 111, 114, 109, 101, 114, 32, 89, 117, 103, 111, 115, 108, 97, 118, 32, 82, 101, 112, 117, 98, 108, 105, 99, 32, 111, 102, 32, 77, 97, 99, 101, 100, 111, 110, 105, 97]), -- MK the former Yugoslav Republic of Macedonia
  ([77, 76], [77, 97, 108, 105]), -- ML Mali
  ([77, 77], [77, 121, 97, 110, 109, 97, 114]), -- MM Myanmar
  ([77, 78], [77, 111, 110, 103, 111, 108, 105, 97]), -- MN Mongolia
  ([77, 79], [77, 97, 99, 97, 111]), -- MO Macao
  ([77, 80], [78, 111, 114, 116, 104, 101, 114, 110, 32, 77, 97, 114, 105, 97, 110, 97, 32, 73, 115, 108, 97, 110, 100, 115]), -- MP Northern Mariana Islands
  ([77, 81], [77, 97, 114, 116, 105, 110, 105, 113, 117, 101]), -- MQ Martinique
  ([77, 82], [77, 97, 117, 114, 105, 116, 97, 110, 105, 97]), -- MR Mauritania
  ([77, 83], [77, 111, 110, 116, 115, 101, 114, 114, 97, 116]), -- MS Montserrat
  ([77, 84], [77, 97, 108, 116, 97]), -- MT Malta
  ([77, 85], [77, 97, 117, 114, 105, 116, 105, 117, 115]), -- MU Mauritius
  ([77, 86], [77, 97, 108, 100, 105, 118, 101, 115]), -- MV Maldives
  ([77, 87], [77, 97, 108, 97, 119, 105]), -- MW Malawi
  ([77, 88], [77, 101, 120, 105, 99, 111]), -- MX Mexico
  ([77, 89], [77, 97, 108, 97, 121, 115, 105, 97]), -- MY Malaysia
  ([77, 90], [77, 111, 122, 97, 109, 98, 105, 113, 117, 101]), -- MZ Mozambique
  ([78, 65], [78, 97, 109, 105, 98, 105, 97]), -- NA Namibia
  ([78, 67], [78, 101, 119, 32, 67, 97, 108, 101, 100, 111, 110, 105, 97]), -- NC New Caledonia
  ([78, 69], [78, 105, 103, 101, 114]), -- NE Niger
  ([78, 70], [78, 111, 114, 102, 111, 108, 107, 32, 73, 115, 108, 97, 110, 100]), -- NF Norfolk Island
  ([78, 71], [78, 105, 103, 101, 114, 105, 97]), -- NG Nigeria
  ([78, 73], [78, 105, 99, 97, 114, 97, 103, 117, 97]), -- NI Nicaragua
  ([78, 76], [78, 101, 116, 104, 101, 114, 108, 97, 110, 100, 115]), -- NL Netherlands
  ([78, 79], [78, 111, 114, 119, 97, 121]), -- NO Norway
  ([78, 80], [78, 101, 112, 97, 108]), -- NP Nepal
  ([78, 82], [78, 97, 117, 114, 117]), -- NR Nauru
  ([78, 85], [78, 105, 117, 101]), -- NU Niue
  ([78, 90], [78, 101, 119, 32, 90, 101, 97, 108, 97, 110, 100]), -- NZ New Zealand
  ([79, 77], [79, 109, 97, 110]), -- OM Oman
  ([80, 65], [80, 97, 110, 97, 109, 97]), -- PA Panama
  ([80, 69], [80, 101, 114, 117]), -- PE Peru
  ([80, 70], [70, 114, 101, 110, 99, 104, 32, 80, 111, 108, 121, 110, 101, 115, 105, 97]), -- PF French Polynesia
  ([80, 71], [80, 97, 112, 117, 97, 32, 78, 101, 119, 32, 71, 117, 105, 110, 101, 97]), -- PG Papua New Guinea
  ([80, 72], [80, 104, 105, 108, 105, 112, 112, 105, 110, 101, 115]), -- PH Philippines
  ([80, 75], [80, 97, 107, 105, 115, 116, 97, 110]), -- PK Pakistan
  ([80, 76], [80, 111, 108, 97, 110, 100]), -- PL Poland
  ([80, 77], [83, 97, 105, 110, 116, 32, 80, 105, 101, 114, 114, 101, 32, 97, 110, 100, 32, 77, 105, 113, 117, 101, 108, 111, 110]), -- PM Saint Pierre and Miquelon
  ([80, 78], [80, 105, 116, 99, 97, 105, 114, 110]), -- PN Pitcairn
  ([80, 82], [80, 117, 101, 114, 116, 111, 32, 82, 105, 99, 111]), -- PR Puerto Rico
  ([80, 83], [83, 116, 97, 116, 101, 32, 111, 102, 32, 80, 97, 108, 101, 115, 116, 105, 110, 101]), -- PS State of Palestine
  ([80, 84], [80, 111, 114, 116, 117, 103, 97, 108]), -- PT Portugal
  ([80, 87], [80, 97, 108, 97, 117]), -- PW Palau
  ([80, 89], [80, 97, 114, 97, 103, 117, 97, 121]), -- PY Paraguay
  ([81, 65], [81, 97, 116, 97, 114]), -- QA Qatar
  ([82, 69], [82, 195, 169, 117, 110, 105, 111, 110]), -- RE Réunion
  ([82, 79], [82, 111, 109, 97, 110, 105, 97]), -- RO Romania
  ([82, 83], [83, 101, 114, 98, 105, 97]), -- RS Serbia
  ([82, 85], [82, 117, 115, 115, 105, 97, 110, 32, 70, 101, 100, 101, 114, 97, 116, 105, 111, 110]), -- RU Russian Federation
  ([82, 87], [82, 119, 97, 110, 100, 97]), -- RW Rwanda
  ([83, 65], [83, 97, 117, 100, 105, 32, 65, 114, 97, 98, 105, 97]), -- SA Saudi Arabia
  ([83, 66], [83, 111, 108, 111, 109, 111, 110, 32, 73, 115, 108, 97, 110, 100, 115]), -- SB Solomon Islands
  ([83, 67], [83, 101, 121, 99, 104, 101, 108, 108, 101, 115]), -- SC Seychelles
  ([83, 68], [83, 117, 100, 97, 110]), -- SD Sudan
  ([83, 69], [83, 119, 101, 100, 101, 110]), -- SE Sweden
  ([83, 71], [83, 105, 110, 103, 97, 112, 111, 114, 101]), -- SG Singapore
  ([83, 72], [83, 97, 105, 110, 116, 32, 72, 101, 108, 101, 110, 97, 44, 32, 65, 115, 99, 101, 110, 115, 105, 111, 110, 32, 97, 110, 100, 32, 84, 114, 105, 115, 116, 97, 110, 32, 100, 97, 32, 67, 117, 110, 104, 97]), -- SH Saint Helena, Ascension and Tristan da Cunha
  ([83, 73], [83, 108, 111, 118, 101, 110, 105, 97]), -- SI Slovenia
  ([83, 74], [83, 118, 97, 108, 98, 97, 114, 100, 32, 97, 110, 100, 32, 74, 97, 110, 32, 77, 97, 121, 101, 110]), -- SJ Svalbard and Jan Mayen
  ([83, 75], [83, 108, 111, 118, 97, 107, 105, 97]), -- SK Slovakia
  ([83, 76], [83, 105, 101, 114, 114, 97, 32, 76, 101, 111, 110, 101]), -- SL Sierra Leone
  ([83, 77], [83, 97, 110, 32, 77, 97, 114, 105, 110, 111]), -- SM San Marino
  ([83, 78], [83, 101, 110, 101, 103, 97, 108]), -- SN Senegal
  ([83, 79], [83, 111, 109, 97, 108, 105, 97]), -- SO Somalia
  ([83, 82], [83, 117, 114, 105, 110, 97, 109, 101]), -- SR Suriname
  ([83, 83], [83, 111, 117, 116, 104, 32, 83, 117, 100, 97, 110]), -- SS South Sudan
  ([83, 84], [83, 97, 111, 32, 84, 111, 109, 101, 32, 97, 110, 100, 32, 80, 114, 105, 110, 99, 105, 112, 101]), -- ST Sao Tome and Principe
  ([83, 86], [69, 108, 32, 83, 97, 108, 118, 97, 100, 111, 114]), -- SV El Salvador
  ([83, 88], [83, 105, 110, 116, 32, 77, 97, 97, 114, 116, 101, 110, 32, 40, 68, 117, 116, 99, 104, 32, 112, 97, 114, 116, 41]), -- SX Sint Maarten (Dutch part)
  ([83, 89], [83, 121, 114, 105, 97, 110, 32, 65, 114, 97, 98, 32, 82, 101, 112, 117, 98, 108, 105, 99]), -- SY Syrian Arab Republic
  ([83, 90], [83, 119, 97, 122, 105, 108, 97, 110, 100]), -- SZ Swaziland
  ([84, 67], [84, 117, 114, 107, 115, 32, 97, 110, 100, 32, 67, 97, 105, 99, 111, 115, 32, 73, 115, 108, 97, 110, 100, 115]), -- TC Turks and Caicos Islands
  ([84, 68], [67, 104, 97, 100]), -- TD Chad
  ([84, 70], [70, 114, 101, 110, 99, 104, 32, 83, 111, 117, 116, 104, 101, 114, 110, 32, 84, 101, 114, 114, 105, 116, 111, 114, 105, 101, 115]), -- TF French Southern Territories
  ([84, 71], [84, 111, 103, 111]), -- TG Togo
  ([84, 72], [84, 104, 97, 105, 108, 97, 110, 100]), -- TH Thailand
  ([84, 74], [84, 97, 106, 105, 107, 105, 115, 116, 97, 110]), -- TJ Tajikistan
  ([84, 75], [84, 111, 107, 101, 108, 97, 117]), -- TK Tokelau
  ([84, 76], [84, 105, 109, 111, 114, 45, 76, 101, 115, 116, 101]), -- TL Timor-Leste
  ([84, 77], [84, 117, 114, 107, 109, 101, 110, 105, 115, 116, 97, 110]), -- TM Turkmenistan
  ([84, 78], [84, 117, 110, 105, 115, 105, 97]), -- TN Tunisia
  ([84, 79], [84, 111, 110, 103, 97]), -- TO Tonga
  ([84, 82], [84, 117, 114, 107, 101, 121]), -- TR Turkey
  ([84, 84], [84, 114, 105, 110, 105, 100, 97, 100, 32, 97, 110, 100, 32, 84, 111, 98, 97, 103, 111]), -- TT Trinidad and Tobago
  ([84, 86], [84, 117, 118, 97, 108, 117]), -- TV Tuvalu
  ([84, 87], [84, 97, 105, 119, 97, 110, 44, 32, 80, 114, 111, 118, 105, 110, 99, 101, 32, 111, 102, 32, 67, 104, 105, 110, 97]), -- TW Taiwan, Province of China
  ([84, 90], [85, 110, 105, 116, 101, 100, 32, 82, 101, 112, 117, 98, 108, 105, 99, 32, 111, 102, 32, 84, 97, 110, 122, 97, 110, 105, 97]), -- TZ United Republic of Tanzania
  ([85, 65], [85, 107, 114, 97, 105, 110, 101]), -- UA Ukraine
  ([85, 71], [85, 103, 97, 110, 100, 97]), -- UG Uganda
  ([85, 77], [85, 110, 105, 116, 101, 100, 32, 83, 116, 97, 116, 101, 115, 32, 77, 105, 110, 111, 114, 32, 79, 117, 116, 108, 121, 105, 110, 103, 32, 73, 115, 108, 97, 110, 100, 115]), -- UM United States Minor Outlying Islands
  ([85, 83], [85, 110, 105, 116, 101, 100, 32, 83, 116, 97, 116, 101, 115, 32, 111, 102, 32, 65, 109, 101, 114, 105, 99, 97]), -- US United States of America
  ([85, 89], [85, 114, 117, 103, 117, 97, 121]), -- UY Uruguay
  ([85, 90], [85, 122, 98, 101, 107, 105, 115, 116, 97, 110]), -- UZ Uzbekistan
  ([86, 65], [72, 111, 108, 121, 32, 83, 101, 101]), -- VA Holy See
  ([86, 67], [83, 97, 105, 110, 116, 32, 86, 105, 110, 99, 101, 110, 116, 32, 97, 110, 100, 32, 116, 104, 101, 32, 71, 114, 101, 110, 97, 100, 105, 110, 101, 115]), -- VC Saint Vincent and the Grenadines
  ([86, 69], [66, 111, 108, 105, 118, 97, 114, 105, 97, 110, 32, 82, 101, 112, 117, 98, 108, 105, 99, 32, 111, 102, 32, 86, 101, 110, 101, 122, 117, 101, 108, 97]), -- VE Bolivarian Republic of Venezuela
  ([86, 71], [66, 114, 105, 116, 105, 115, 104, 32, 86, 105, 114, 103, 105, 110, 32, 73, 115, 108, 97, 110, 100, 115]), -- VG British Virgin Islands
  ([86, 73], [85, 46, 83, 46, 32, 86, 105, 114, 103, 105, 110, 32, 73, 115, 108, 97, 110, 100, 115]), -- VI U.S. Virgin Islands
  ([86, 78], [86, 105, 101, 116, 32, 78, 97, 109]), -- VN Viet Nam
  ([86, 85], [86, 97, 110, 117, 97, 116, 117]), -- VU Vanuatu
  ([87, 70], [87, 97, 108, 108, 105, 115, 32, 97, 110, 100, 32, 70, 117, 116, 117, 110, 97]), -- WF Wallis and Futuna
  ([87, 83], [83, 97, 109, 111, 97]), -- WS Samoa
  ([89, 69], [89, 101, 109, 101, 110]), -- YE Yemen
  ([89, 84], [77, 97, 121, 111, 116, 116, 101]), -- YT Mayotte
  ([90, 65], [83, 111, 117, 116, 104, 32, 65, 102, 114, 105, 99, 97]), -- ZA South Africa
  ([90, 77], [90, 97, 109, 98, 105, 97]), -- ZM Zambia
  ([90, 87], [90, 105, 109, 98, 97, 98, 119, 101]) -- ZW Zimbabwe
]

/-- currencies.hpp:40-217: the codes and denominators of the constants in `currencies`; the denominator is 100 where none is given (iso_4217.hpp:72-73). -/
def currencies : List (List Nat × Nat) := [
  ([65, 69, 68], 100), ([65, 70, 78], 100), ([65, 76, 76], 100), ([65, 77, 68], 100), ([65, 78, 71], 100), ([65, 79, 65], 100), ([65, 82, 83], 100), ([65, 85, 68], 100),
  ([65, 87, 71], 100), ([65, 90, 78], 100), ([66, 65, 77], 100), ([66, 66, 68], 100), ([66, 68, 84], 100), ([66, 71, 78], 100), ([66, 72, 68], 1000), ([66, 73, 70], 1),
  ([66, 77, 68], 100), ([66, 78, 68], 100), ([66, 79, 66], 100), ([66, 79, 86], 100), ([66, 82, 76], 100), ([66, 83, 68], 100), ([66, 84, 78], 100), ([66, 87, 80], 100),
  ([66, 89, 78], 100), ([66, 90, 68], 100), ([67, 65, 68], 100), ([67, 68, 70], 100), ([67, 72, 69], 100), ([67, 72, 70], 100), ([67, 72, 87], 100), ([67, 76, 70], 100),
  ([67, 76, 80], 1), ([67, 78, 89], 100), ([67, 79, 80], 100), ([67, 79, 85], 100), ([67, 82, 67], 100), ([67, 85, 67], 100), ([67, 85, 80], 100), ([67, 86, 69], 100),
  ([67, 90, 75], 100), ([68, 74, 70], 1), ([68, 75, 75], 100), ([68, 79, 80], 100), ([68, 90, 68], 100), ([69, 71, 80], 100), ([69, 82, 78], 100), ([69, 84, 66], 100),
  ([69, 85, 82], 100), ([70, 74, 68], 100), ([70, 75, 80], 100), ([71, 66, 80], 100), ([71, 69, 76], 100), ([71, 72, 83], 100), ([71, 73, 80], 100), ([71, 77, 68], 100),
  ([71, 78, 70], 1), ([71, 84, 81], 100), ([71, 89, 68], 100), ([72, 75, 68], 100), ([72, 78, 76], 100), ([72, 82, 75], 100), ([72, 84, 71], 100), ([72, 85, 70], 100),
  ([73, 68, 82], 100), ([73, 76, 83], 100), ([73, 78, 82], 100), ([73, 81, 68], 1000), ([73, 82, 82], 100), ([73, 83, 75], 1), ([74, 77, 68], 100), ([74, 79, 68], 1000),
  ([74, 80, 89], 1), ([75, 69, 83], 100), ([75, 71, 83], 100), ([75, 72, 82], 100), ([75, 77, 70], 1), ([75, 80, 87], 100), ([75, 82, 87], 1), ([75, 87, 68], 1000),
  ([75, 89, 68], 100), ([75, 90, 84], 100), ([76, 65, 75], 100), ([76, 66, 80], 100), ([76, 75, 82], 100), ([76, 82, 68], 100), ([76, 83, 76], 100), ([76, 89, 68], 1000),
  ([77, 65, 68], 100), ([77, 68, 76], 100), ([77, 71, 65], 100), ([77, 75, 68], 100), ([77, 77, 75], 100), ([77, 78, 84], 100), ([77, 79, 80], 100), ([77, 82, 85], 100),
  ([77, 85, 82], 100), ([77, 86, 82], 100), ([77, 87, 75], 100), ([77, 88, 78], 100), ([77, 88, 86], 100), ([77, 89, 82], 100), ([77, 90, 78], 100), ([78, 65, 68], 100),
  ([78, 71, 78], 100), ([78, 73, 79], 100), ([78, 79, 75], 100), ([78, 80, 82], 100), ([78, 90, 68], 100), ([79, 77, 82], 1000), ([80, 65, 66], 100), ([80, 69, 78], 100),
  ([80, 71, 75], 100), ([80, 72, 80], 100), ([80, 75, 82], 100), ([80, 76, 78], 100), ([80, 89, 71], 1), ([81, 65, 82], 100), ([82, 79, 78], 100), ([82, 83, 68], 100),
  ([82, 85, 66], 100), ([82, 87, 70], 1), ([83, 65, 82], 100), ([83, 66, 68], 100), ([83, 67, 82], 100), ([83, 68, 71], 100), ([83, 69, 75], 100), ([83, 71, 68], 100),
  ([83, 72, 80], 100), ([83, 76, 76], 100), ([83, 79, 83], 100), ([83, 82, 68], 100), ([83, 83, 80], 100), ([83, 84, 78], 100), ([83, 86, 67], 100), ([83, 89, 80], 100),
  ([83, 90, 76], 100), ([84, 72, 66], 100), ([84, 74, 83], 100), ([84, 77, 84], 100), ([84, 78, 68], 100), ([84, 79, 80], 100), ([84, 82, 89], 100), ([84, 84, 68], 100),
  ([84, 87, 68], 100), ([84, 90, 83], 100), ([85, 65, 72], 100), ([85, 71, 88], 1), ([85, 83, 68], 100), ([85, 83, 78], 100), ([85, 89, 73], 100), ([85, 89, 85], 100),
  ([85, 90, 83], 100), ([86, 69, 70], 100), ([86, 78, 68], 1), ([86, 85, 86], 1), ([87, 83, 84], 100), ([88, 65, 70], 1), ([88, 65, 71], 100), ([88, 65, 85], 100),
  ([88, 66, 65], 100), ([88, 66, 66], 100), ([88, 66, 67], 100), ([88, 66, 68], 100), ([88, 67, 68], 100), ([88, 68, 82], 100), ([88, 79, 70], 1), ([88, 80, 68], 100),
  ([88, 80, 70], 1), ([88, 80, 84], 100), ([88, 83, 85], 100), ([88, 85, 65], 100), ([88, 88, 88], 100), ([89, 69, 82], 100), ([90, 65, 82], 100), ([90, 77, 87], 100),
  ([90, 87, 76], 100)]

/-- currencies.hpp:237-592: the cases of `currency_name`. -/
def currencyNames : List (List Nat × List Nat) := [
  ([65, 69, 68], [85, 65, 69, 32, 68, 105, 114, 104, 97, 109]), -- AED UAE Dirham
  ([65, 70, 78], [65, 102, 103, 104, 97, 110, 105]), -- AFN Afghani
  ([65, 76, 76], [76, 101, 107]), -- ALL Lek
  ([65, 77, 68], [65, 114, 109, 101, 110, 105, 97, 110, 32, 68, 114, 97, 109]), -- AMD Armenian Dram
  ([65, 78, 71], [78, 101, 116, 104, 101, 114, 108, 97, 110, 100, 115, 32, 65, 110, 116, 105, 108, 108, 101, 97, 110, 32, 71, 117, 105, 108, 100, 101, 114]), -- ANG Netherlands Antillean Guilder
  ([65, 79, 65], [75, 119, 97, 110, 122, 97]), -- AOA Kwanza
  ([65, 82, 83], [65, 114, 103, 101, 110, 116, 105, 110, 101, 32, 80, 101, 115, 111]), -- ARS Argentine Peso
  ([65, 85, 68], [65, 117, 115, 116, 114, 97, 108, 105, 97, 110, 32, 68, 111, 108, 108, 97, 114]), -- AUD Australian Dollar
  ([65, 87, 71], [65, 114, 117, 98, 97, 110, 32, 70, 108, 111, 114, 105, 110]), -- AWG Aruban Florin
  ([65, 90, 78], [65, 122, 101, 114, 98, 97, 105, 106, 97, 110, 32, 77, 97, 110, 97, 116]), -- AZN Azerbaijan Manat
  ([66, 65, 77], [67, 111, 110, 118, 101, 114, 116, 105, 98, 108, 101, 32, 77, 97, 114, 107]), -- BAM Convertible Mark
  ([66, 66, 68], [66, 97, 114, 98, 97, 100, 111, 115, 32, 68, 111, 108, 108, 97, 114]), -- BBD Barbados Dollar
  ([66, 68, 84], [84, 97, 107, 97]), -- BDT Taka
  ([66, 71, 78], [66, 117, 108, 103, 97, 114, 105, 97, 110, 32, 76, 101, 118]), -- BGN Bulgarian Lev
  ([66, 72, 68], [66, 97, 104, 114, 97, 105, 110, 105, 32, 68, 105, 110, 97, 114]), -- BHD Bahraini Dinar
  ([66, 73, 70], [66, 117, 114, 117, 110, 100, 105, 32, 70, 114, 97, 110, 99]), -- BIF Burundi Franc
  ([66, 77, 68], [66, 101, 114, 109, 117, 100, 105, 97, 110, 32, 68, 111, 108, 108, 97, 114]), -- BMD Bermudian Dollar
  ([66, 78, 68], [66, 114, 117, 110, 101, 105, 32, 68, 111, 108, 108, 97, 114]), -- BND Brunei Dollar
  ([66, 79, 66], [66, 111, 108, 105, 118, 105, 97, 110, 111]), -- BOB Boliviano
  ([66, 79, 86], [77, 118, 100, 111, 108]), -- BOV Mvdol
  ([66, 82, 76], [66, 114, 97, 122, 105, 108, 105, 97, 110, 32, 82, 101, 97, 108]), -- BRL Brazilian Real
  ([66, 83, 68], [66, 97, 104, 97, 109, 105, 97, 110, 32, 68, 111, 108, 108, 97, 114]), -- BSD Bahamian Dollar
  ([66, 84, 78], [78, 103, 117, 108, 116, 114, 117, 109]), -- BTN Ngultrum
  ([66, 87, 80], [80, 117, 108, 97]), -- BWP Pula
  ([66, 89, 78], [66, 101, 108, 97, 114, 117, 115, 105, 97, 110, 32, 82, 117, 98, 108, 101]), -- BYN Belarusian Ruble
  ([66, 90, 68], [66, 101, 108, 105, 122, 101, 32, 68, 111, 108, 108, 97, 114]), -- BZD Belize Dollar
  ([67, 65, 68], [67, 97, 110, 97, 100, 105, 97, 110, 32, 68, 111, 108, 108, 97, 114]), -- CAD Canadian Dollar
  ([67, 68, 70], [67, 111, 110, 103, 111, 108, 101, 115, 101, 32, 70, 114, 97, 110, 99]), -- CDF Congolese Franc
  ([67, 72, 69], [87, 73, 82, 32, 69, 117, 114, 111]), -- CHE WIR Euro
  ([67, 72, 70], [83, 119, 105, 115, 115, 32, 70, 114, 97, 110, 99]), -- CHF Swiss Franc
  ([67, 72, 87], [87, 73, 82, 32, 70, 114, 97, 110, 99]), -- CHW WIR Franc
  ([67, 76, 70], [85, 110, 105, 100, 97, 100, 32, 100, 101, 32, 70, 111, 109, 101, 110, 116, 111]), -- CLF Unidad de Fomento
  ([67, 76, 80], [67, 104, 105, 108, 101, 97, 110, 32, 80, 101, 115, 111]), -- CLP Chilean Peso
  ([67, 78, 89], [89, 117, 97, 110, 32, 82, 101, 110, 109, 105, 110, 98, 105]), -- CNY Yuan Renminbi
  ([67, 79, 80], [67, 111, 108, 111, 109, 98, 105, 97, 110, 32, 80, 101, 115, 111]), -- COP Colombian Peso
  ([67, 79, 85], [85, 110, 105, 100, 97, 100, 32, 100, 101, 32, 86, 97, 108, 111, 114, 32, 82, 101, 97, 108]), -- COU Unidad de Valor Real
  ([67, 82, 67], [67, 111, 115, 116, 97, 32, 82, 105, 99, 97, 110, 32, 67, 111, 108, 111, 110]), -- CRC Costa Rican Colon
  ([67, 85, 67], [80, 101, 115, 111, 32, 67, 111, 110, 118, 101, 114, 116, 105, 98, 108, 101]), -- CUC Peso Convertible
  ([67, 85, 80], [67, 117, 98, 97, 110, 32, 80, 101, 115, 111]), -- CUP Cuban Peso
  ([67, 86, 69], [67, 97, 98, 111, 32, 86, 101, 114, 100, 101, 32, 69, 115, 99, 117, 100, 111]), -- CVE Cabo Verde Escudo
  ([67, 90, 75], [67, 122, 101, 99, 104, 32, 75, 111, 114, 117, 110, 97]), -- CZK Czech Koruna
  ([68, 74, 70], [68, 106, 105, 98, 111, 117, 116, 105, 32, 70, 114, 97, 110, 99]), -- DJF Djibouti Franc
  ([68, 75, 75], [68, 97, 110, 105, 115, 104, 32, 75, 114, 111, 110, 101]), -- DKK Danish Krone
  ([68, 79, 80], [68, 111, 109, 105, 110, 105, 99, 97, 110, 32, 80, 101, 115, 111]), -- DOP Dominican Peso
  ([68, 90, 68], [65, 108, 103, 101, 114, 105, 97, 110, 32, 68, 105, 110, 97, 114]), -- DZD Algerian Dinar
  ([69, 71, 80], [69, 103, 121, 112, 116, 105, 97, 110, 32, 80, 111, 117, 110, 100]), -- EGP Egyptian Pound
  ([69, 82, 78], [78, 97, 107, 102, 97]), -- ERN Nakfa
  ([69, 84, 66], [69, 116, 104, 105, 111, 112, 105, 97, 110, 32, 66, 105, 114, 114]), -- ETB Ethiopian Birr
  ([69, 85, 82], [69, 117, 114, 111]), -- EUR Euro
  ([70, 74, 68], [70, 105, 106, 105, 32, 68, 111, 108, 108, 97, 114]), -- FJD Fiji Dollar
  ([70, 75, 80], [70, 97, 108, 107, 108, 97, 110, 100, 32, 73, 115, 108, 97, 110, 100, 115, 32, 80, 111, 117, 110, 100]), -- FKP Falkland Islands Pound
  ([71, 66, 80], [80, 111, 117, 110, 100, 32, 83, 116, 101, 114, 108, 105, 110, 103]), -- GBP Pound Sterling
  ([71, 69, 76], [76, 97, 114, 105]), -- GEL Lari
  ([71, 72, 83], [71, 104, 97, 110, 97, 32, 67, 101, 100, 105]), -- GHS Ghana Cedi
  ([71, 73, 80], [71, 105, 98, 114, 97, 108, 116, 97, 114, 32, 80, 111, 117, 110, 100]), -- GIP Gibraltar Pound
  ([71, 77, 68], [68, 97, 108, 97, 115, 105]), -- GMD Dalasi
  ([71, 78, 70], [71, 117, 105, 110, 101, 97, 110, 32, 70, 114, 97, 110, 99]), -- GNF Guinean Franc
  ([71, 84, 81], [81, 117, 101, 116, 122, 97, 108]), -- GTQ Quetzal
  ([71, 89, 68], [71, 117, 121, 97, 110, 97, 32, 68, 111, 108, 108, 97, 114]), -- GYD Guyana Dollar
  ([72, 75, 68], [72, 111, 110, 103, 32, 75, 111, 110, 103, 32, 68, 111, 108, 108, 97, 114]), -- HKD Hong Kong Dollar
  ([72, 78, 76], [76, 101, 109, 112, 105, 114, 97]), -- HNL Lempira
  ([72, 82, 75], [75, 117, 110, 97]), -- HRK Kuna
  ([72, 84, 71], [71, 111, 117, 114, 100, 101]), -- HTG Gourde
  ([72, 85, 70], [70, 111, 114, 105, 110, 116]), -- HUF Forint
  ([73, 68, 82], [82, 117, 112, 105, 97, 104]), -- IDR Rupiah
  ([73, 76, 83], [78, 101, 119, 32, 73, 115, 114, 97, 101, 108, 105, 32, 83, 104, 101, 113, 101, 108]), -- ILS New Israeli Sheqel
  ([73, 78, 82], [73, 110, 100, 105, 97, 110, 32, 82, 117, 112, 101, 101]), -- INR Indian Rupee
  ([73, 81, 68], [73, 114, 97, 113, 105, 32, 68, 105, 110, 97, 114]), -- IQD Iraqi Dinar
  ([73, 82, 82], [73, 114, 97, 110, 105, 97, 110, 32, 82, 105, 97, 108]), -- IRR Iranian Rial
  ([73, 83, 75], [73, 99, 101, 108, 97, 110, 100, 32, 75, 114, 111, 110, 97]), -- ISK Iceland Krona
  ([74, 77, 68], [74, 97, 109, 97, 105, 99, 97, 110, 32, 68, 111, 108, 108, 97, 114]), -- JMD Jamaican Dollar
  ([74, 79, 68], [74, 111, 114, 100, 97, 110, 105, 97, 110, 32, 68, 105, 110, 97, 114]), -- JOD Jordanian Dinar
  ([74, 80, 89], [89, 101, 110]), -- JPY Yen
  ([75, 69, 83], [75, 101, 110, 121, 97, 110, 32, 83, 104, 105, 108, 108, 105, 110, 103]), -- KES Kenyan Shilling
  ([75, 71, 83], [83, 111, 109]), -- KGS Som
  ([75, 72, 82], [82, 105, 101, 108]), -- KHR Riel
  ([75, 77, 70], [67, 111, 109, 111, 114, 105, 97, 110, 32, 70, 114, 97, 110, 99, 32]), -- KMF Comorian Franc 
  ([75, 80, 87], [78, 111, 114, 116, 104, 32, 75, 111, 114, 101, 97, 110, 32, 87, 111, 110]), -- KPW North Korean Won
  ([75, 82, 87], [87, 111, 110]), -- KRW Won
  ([75, 87, 68], [75, 117, 119, 97, 105, 116, 105, 32, 68, 105, 110, 97, 114]), -- KWD Kuwaiti Dinar
  ([75, 89, 68], [67, 97, 121, 109, 97, 110, 32, 73, 115, 108, 97, 110, 100, 115, 32, 68, 111, 108, 108, 97, 114]), -- KYD Cayman Islands Dollar
  ([75, 90, 84], [84, 101, 110, 103, 101]), -- KZT Tenge
  ([76, 65, 75], [76, 97, 111, 32, 75, 105, 112]), -- LAK Lao Kip
  ([76, 66, 80], [76, 101, 98, 97, 110, 101, 115, 101, 32, 80, 111, 117, 110, 100]), -- LBP Lebanese Pound
  ([76, 75, 82], [83, 114, 105, 32, 76, 97, 110, 107, 97, 32, 82, 117, 112, 101, 101]), -- LKR Sri Lanka Rupee
  ([76, 82, 68], [76, 105, 98, 101, 114, 105, 97, 110, 32, 68, 111, 108, 108, 97, 114]), -- LRD Liberian Dollar
  ([76, 83, 76], [76, 111, 116, 105]), -- LSL Loti
  ([76, 89, 68], [76, 105, 98, 121, 97, 110, 32, 68, 105, 110, 97, 114]), -- LYD Libyan Dinar
  ([77, 65, 68], [77, 111, 114, 111, 99, 99, 97, 110, 32, 68, 105, 114, 104, 97, 109]), -- MAD Moroccan Dirham
  ([77, 68, 76], [77, 111, 108, 100, 111, 118, 97, 110, 32, 76, 101, 117]), -- MDL Moldovan Leu
  ([77, 71, 65], [77, 97, 108, 97, 103, 97, 115, 121, 32, 65, 114, 105, 97, 114, 121]), -- MGA Malagasy Ariary
  ([77, 75, 68], [68, 101, 110, 97, 114]), -- MKD Denar
  ([77, 77, 75], [75, 121, 97, 116]), -- MMK Kyat
  ([77, 78, 84], [84, 117, 103, 114, 105, 107]), -- MNT Tugrik
  ([77, 79, 80], [80, 97, 116, 97, 99, 97]), -- MOP Pataca
  ([77, 82, 85], [79, 117, 103, 117, 105, 121, 97]), -- MRU Ouguiya
  ([77, 85, 82], [77, 97, 117, 114, 105, 116, 105, 117, 115, 32, 82, 117, 112, 101, 101]), -- MUR Mauritius Rupee
  ([77, 86, 82], [82, 117, 102, 105, 121, 97, 97]), -- MVR Rufiyaa
  ([77, 87, 75], [77, 97, 108, 97, 119, 105, 32, 75, 119, 97, 99, 104, 97]), -- MWK Malawi Kwacha
  ([77, 88, 78], [77, 101, 120, 105, 99, 97, 110, 32, 80, 101, 115, 111]), -- MXN Mexican Peso
  ([77, 88, 86], [77, 101, 120, 105, 99, 97, 110, 32, 85, 110, 105, 100, 97, 100, 32, 100, 101, 32, 73, 110, 118, 101, 114, 115, 105, 111, 110, 32, 40, 85, 68, 73, 41]), -- MXV Mexican Unidad de Inversion (UDI)
  ([77, 89, 82], [77, 97, 108, 97, 121, 115, 105, 97, 110, 32, 82, 105, 110, 103, 103, 105, 116]), -- MYR Malaysian Ringgit
  ([77, 90, 78], [77, 111, 122, 97, 109, 98, 105, 113, 117, 101, 32, 77, 101, 116, 105, 99, 97, 108]), -- MZN Mozambique Metical
  ([78, 65, 68], [78, 97, 109, 105, 98, 105, 97, 32, 68, 111, 108, 108, 97, 114]), -- NAD Namibia Dollar
  ([78, 71, 78], [78, 97, 105, 114, 97]), -- NGN Naira
  ([78, 73, 79], [67, 111, 114, 100, 111, 98, 97, 32, 79, 114, 111]), -- NIO Cordoba Oro
  ([78, 79, 75], [78, 111, 114, 119, 101, 103, 105, 97, 110, 32, 75, 114, 111, 110, 101]), -- NOK Norwegian Krone
  ([78, 80, 82], [78, 101, 112, 97, 108, 101, 115, 101, 32, 82, 117, 112, 101, 101]), -- NPR Nepalese Rupee
  ([78, 90, 68], [78, 101, 119, 32, 90, 101, 97, 108, 97, 110, 100, 32, 68, 111, 108, 108, 97, 114]), -- NZD New Zealand Dollar
  ([79, 77, 82], [82, 105, 97, 108, 32, 79, 109, 97, 110, 105]), -- OMR Rial Omani
  ([80, 65, 66], [66, 97, 108, 98, 111, 97]), -- PAB Balboa
  ([80, 69, 78], [83, 111, 108]), -- PEN Sol
  ([80, 71, 75], [75, 105, 110, 97]), -- PGK Kina
  ([80, 72, 80], [80, 104, 105, 108, 105, 112, 112, 105, 110, 101, 32, 80, 105, 115, 111]), -- PHP Philippine Piso
  ([80, 75, 82], [80, 97, 107, 105, 115, 116, 97, 110, 32, 82, 117, 112, 101, 101]), -- PKR Pakistan Rupee
  ([80, 76, 78], [90, 108, 111, 116, 121]), -- PLN Zloty
  ([80, 89, 71], [71, 117, 97, 114, 97, 110, 105]), -- PYG Guarani
  ([81, 65, 82], [81, 97, 116, 97, 114, 105, 32, 82, 105, 97, 108]), -- QAR Qatari Rial
  ([82, 79, 78], [82, 111, 109, 97, 110, 105, 97, 110, 32, 76, 101, 117]), -- RON Romanian Leu
  ([82, 83, 68], [83, 101, 114, 98, 105, 97, 110, 32, 68, 105, 110, 97, 114]), -- RSD Serbian Dinar
  ([82, 85, 66], [82, 117, 115, 115, 105, 97, 110, 32, 82, 117, 98, 108, 101]), -- RUB Russian Ruble
  ([82, 87, 70], [82, 119, 97, 110, 100, 97, 32, 70, 114, 97, 110, 99]), -- RWF Rwanda Franc
  ([83, 65, 82], [83, 97, 117, 100, 105, 32, 82, 105, 121, 97, 108]), -- SAR Saudi Riyal
  ([83, 66, 68], [83, 111, 108, 111, 109, 111, 110, 32, 73, 115, 108, 97, 110, 100, 115, 32, 68, 111, 108, 108, 97, 114]), -- SBD Solomon Islands Dollar
  ([83, 67, 82], [83, 101, 121, 99, 104, 101, 108, 108, 101, 115, 32, 82, 117, 112, 101, 101]), -- SCR Seychelles Rupee
  ([83, 68, 71], [83, 117, 100, 97, 110, 101, 115, 101, 32, 80, 111, 117, 110, 100]), -- SDG Sudanese Pound
  ([83, 69, 75], [83, 119, 101, 100, 105, 115, 104, 32, 75, 114, 111, 110, 97]), -- SEK Swedish Krona
  ([83, 71, 68], [83, 105, 110, 103, 97, 112, 111, 114, 101, 32, 68, 111, 108, 108, 97, 114]), -- SGD Singapore Dollar
  ([83, 72, 80], [83, 97, 105, 110, 116, 32, 72, 101, 108, 101, 110, 97, 32, 80, 111, 117, 110, 100]), -- SHP Saint Helena Pound
  ([83, 76, 76], [76, 101, 111, 110, 101]), -- SLL Leone
  ([83, 79, 83], [83, 111, 109, 97, 108, 105, 32, 83, 104, 105, 108, 108, 105, 110, 103]), -- SOS Somali Shilling
  ([83, 82, 68], [83, 117, 114, 105, 110, 97, 109, 32, 68, 111, 108, 108, 97, 114]), -- SRD Surinam Dollar
  ([83, 83, 80], [83, 111, 117, 116, 104, 32, 83, 117, 100, 97, 110, 101, 115, 101, 32, 80, 111, 117, 110, 100]), -- SSP South Sudanese Pound
  ([83, 84, 78], [68, 111, 98, 114, 97]), -- STN Dobra
  ([83, 86, 67], [69, 108, 32, 83, 97, 108, 118, 97, 100, 111, 114, 32, 67, 111, 108, 111, 110]), -- SVC El Salvador Colon
  ([83, 89, 80], [83, 121, 114, 105, 97, 110, 32, 80, 111, 117, 110, 100]), -- SYP Syrian Pound
  ([83, 90, 76], [76, 105, 108, 97, 110, 103, 101, 110, 105]), -- SZL Lilangeni
  ([84, 72, 66], [66, 97, 104, 116]), -- THB Baht
  ([84, 74, 83], [83, 111, 109, 111, 110, 105]), -- TJS Somoni
  ([84, 77, 84], [84, 117, 114, 107, 109, 101, 110, 105, 115, 116, 97, 110, 32, 78, 101, 119, 32, 77, 97, 110, 97, 116]), -- TMT Turkmenistan New Manat
  ([84, 78, 68], [84, 117, 110, 105, 115, 105, 97, 110, 32, 68, 105, 110, 97, 114]), -- TND Tunisian Dinar
  ([84, 79, 80], [80, 97, 226, 128, 153, 97, 110, 103, 97]), -- TOP Pa’anga
  ([84, 82, 89], [84, 117, 114, 107, 105, 115, 104, 32, 76, 105, 114, 97]), -- TRY Turkish Lira
  ([84, 84, 68], [84, 114, 105, 110, 105, 100, 97, 100, 32, 97, 110, 100, 32, 84, 111, 98, 97, 103, 111, 32, 68, 111, 108, 108, 97, 114]), -- TTD Trinidad and Tobago Dollar
  ([84, 87, 68], [78, 101, 119, 32, 84, 97, 105, 119, 97, 110, 32, 68, 111, 108, 108, 97, 114]), -- TWD New Taiwan Dollar
  ([84, 90, 83], [84, 97, 110, 122, 97, 110, 105, 97, 110, 32, 83, 104, 105, 108, 108, 105, 110, 103]), -- TZS Tanzanian Shilling
  ([85, 65, 72], [72, 114, 121, 118, 110, 105, 97]), -- UAH Hryvnia
  ([85, 71, 88], [85, 103, 97, 110, 100, 97, 32, 83, 104, 105, 108, 108, 105, 110, 103]), -- UGX Uganda Shilling
  ([85, 83, 68], [85, 83, 32, 68, 111, 108, 108, 97, 114]), -- USD US Dollar
  ([85, 89, 73], [85, 114, 117, 103, 117, 97, 121, 32, 80, 101, 115, 111, 32, 101, 110, 32, 85, 110, 105, 100, 97, 100, 101, 115, 32, 73, 110, 100, 101, 120, 97, 100, 97, 115, 32, 40, 85, 82, 85, 73, 85, 82, 85, 73, 41]), -- UYI Uruguay Peso en Unidades Indexadas (URUIURUI)
  ([85, 89, 85], [80, 101, 115, 111, 32, 85, 114, 117, 103, 117, 97, 121, 111]), -- UYU Peso Uruguayo
  ([85, 90, 83], [85, 122, 98, 101, 107, 105, 115, 116, 97, 110, 32, 83, 117, 109]), -- UZS Uzbekistan Sum
  ([86, 69, 70], [66, 111, 108, 195, 173, 118, 97, 114]), -- VEF Bolívar
  ([86, 78, 68], [68, 111, 110, 103]), -- VND Dong
  ([86, 85, 86], [86, 97, 116, 117]), -- VUV Vatu
  ([87, 83, 84], [84, 97, 108, 97]), -- WST Tala
  ([88, 65, 70], [67, 70, 65, 32, 70, 114, 97, 110, 99, 32, 66, 69, 65, 67]), -- XAF CFA Franc BEAC
  ([88, 65, 71], [83, 105, 108, 118, 101, 114]), -- XAG Silver
  ([88, 65, 85], [71, 111, 108, 100]), -- XAU Gold
  ([88, 66, 65], [66, 111, 110, 100, 32, 77, 97, 114, 107, 101, 116, 115, 32, 85, 110, 105, 116, 32, 69, 117, 114, 111, 112, 101, 97, 110, 32, 67, 111, 109, 112, 111, 115, 105, 116, 101, 32, 85, 110, 105, 116, 32, 40, 69, 85, 82, 67, 79, 41]), -- XBA Bond Markets Unit European Composite Unit (EURCO)
  ([88, 66, 66], [66, 111, 110, 100, 32, 77, 97, 114, 107, 101, 116, 115, 32, 85, 110, 105, 116, 32, 69, 117, 114, 111, 112, 101, 97, 110, 32, 77, 111, 110, 101, 116, 97, 114, 121, 32, 85, 110, 105, 116, 32, 40, 69, 46, 77, 46, 85, 46, 45, 54, 41]), -- XBB Bond Markets Unit European Monetary Unit (E.M.U.-6)
  ([88, 66, 67], [66, 111, 110, 100, 32, 77, 97, 114, 107, 101, 116, 115, 32, 85, 110, 105, 116, 32, 69, 117, 114, 111, 112, 101, 97, 110, 32, 85, 110, 105, 116, 32, 111, 102, 32, 65, 99, 99, 111, 117, 110, 116, 32, 57, 32, 40, 69, 46, 85, 46, 65, 46, 45, 57, 41]), -- XBC Bond Markets Unit European Unit of Account 9 (E.U.A.-9)
  ([88, 66, 68], [66, 111, 110, 100, 32, 77, 97, 114, 107, 101, 116, 115, 32, 85, 110, 105, 116, 32, 69, 117, 114, 111, 112, 101, 97, 110, 32, 85, 110, 105, 116, 32, 111, 102, 32, 65, 99, 99, 111, 117, 110, 116, 32, 49, 55, 32, 40, 69, 46, 85, 46, 65, 46, 45, 49, 55, 41]), -- XBD Bond Markets Unit European Unit of Account 17 (E.U.A.-17)
  ([88, 67, 68], [69, 97, 115, 116, 32, 67, 97, 114, 105, 98, 98, 101, 97, 110, 32, 68, 111, 108, 108, 97, 114]), -- XCD East Caribbean Dollar
  ([88, 68, 82], [83, 68, 82, 32, 40, 83, 112, 101, 99, 105, 97, 108, 32, 68, 114, 97, 119, 105, 110, 103, 32, 82, 105, 103, 104, 116, 41]), -- XDR SDR (Special Drawing Right)
  ([88, 79, 70], [67, 70, 65, 32, 70, 114, 97, 110, 99, 32, 66, 67, 69, 65, 79]), -- XOF CFA Franc BCEAO
  ([88, 80, 68], [80, 97, 108, 108, 97, 100, 105, 117, 109]), -- XPD Palladium
  ([88, 80, 70], [67, 70, 80, 32, 70, 114, 97, 110, 99]), -- XPF CFP Franc
  ([88, 80, 84], [80, 108, 97, 116, 105, 110, 117, 109]), -- XPT Platinum
  ([88, 83, 85], [83, 117, 99, 114, 101]), -- XSU Sucre
  ([88, 85, 65], [65, 68, 66, 32, 85, 110, 105, 116, 32, 111, 102, 32, 65, 99, 99, 111, 117, 110, 116]), -- XUA ADB Unit of Account
  ([89, 69, 82], [89, 101, 109, 101, 110, 105, 32, 82, 105, 97, 108]), -- YER Yemeni Rial
  ([90, 65, 82], [82, 97, 110, 100]), -- ZAR Rand
  ([90, 77, 87], [90, 97, 109, 98, 105, 97, 110, 32, 75, 119, 97, 99, 104, 97]), -- ZMW Zambian Kwacha
  ([90, 87, 76], [90, 105, 109, 98, 97, 98, 119, 101, 32, 68, 111, 108, 108, 97, 114]) -- ZWL Zimbabwe Dollar
]

/-- countries.hpp:292-296 `unique_hash` for countries, on `size_t`. -/
def countryUniqueHash (c : List Nat) : Nat :=
  match c with
  | [a, b] => u64 (u64 (u64 (u64 (a + (2 ^ 64 - 65)) + 26 * b)) + (2 ^ 64 - 65))
  | _ => 0

/-- currencies.hpp:222-228 `unique_hash` for currencies, and iso_4217.hpp:186-191 `std::hash<iso_4217>`, which are the same expression on `size_t`. -/
def currencyHash (c : List Nat) : Nat :=
  match c with
  | [a, b, d] => u64 (u64 (u64 (u64 (u64 (a + (2 ^ 64 - 65)) + 26 * b) + (2 ^ 64 - 65)) + 676 * d) + (2 ^ 64 - 65))
  | _ => 0

/-- iso_4217.hpp:73-85: the constructor; the code has three characters. -/
def currency (c : List Nat) (denominator : Nat) : Outcome (List Nat × Nat) :=
  match c with
  | [a, b, d] => if isUpper a && isUpper b && isUpper d then (if denominator = 0 then .throws else .ok ([a, b, d], denominator)) else .throws
  | _ => .ub

/-- A `switch` on a hash: the text of the case with the same hash, if there is one. -/
def switchOn (hash : List Nat → Nat) (cases : List (List Nat × List Nat)) (c : List Nat) : Option (List Nat) :=
  (cases.find? fun e => hash e.1 == hash c).map (·.2)

/-- The text `iso_3166_1_alpha_2 ` (countries.hpp:803). -/
def countryPrefix : List Nat := [105, 115, 111, 95, 51, 49, 54, 54, 95, 49, 95, 97, 108, 112, 104, 97, 95, 50, 32]

/-- countries.hpp:299-805 `country_name`. -/
def countryName (c : List Nat) : List Nat := (switchOn countryUniqueHash countryNames c).getD (countryPrefix ++ c)

/-- currencies.hpp:231-597 `currency_name`. It does not depend on the denominator. -/
def currencyName (c : List Nat) : List Nat := (switchOn currencyHash currencyNames c).getD c

end Esl.Names
