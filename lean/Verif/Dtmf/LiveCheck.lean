import Verif.Dtmf.DialCheck
import Verif.Dtmf.DialSum

/-!
# The window behind C151

The effective window of examples/dtmf_live.go, checked by the kernel in integer arithmetic, and the table of what the eight detectors get of the eight
tones through it, checked in `LiveRowsA` and `LiveRowsB`.
-/

set_option maxRecDepth 100000

namespace Verif.Dtmf.Live
open Complex Verif.Ax25.Ear Verif.Ax25.Ear.Ball Dial

/-! ## Roots of unity -/

/-- Enclosure of `e^{2πi/176400}`. -/
def rootF : Ball := ⟨999999999366, 35618964, 2⟩

theorem has_rootF : rootF.Has (exp ((2 * Real.pi / 176400 : ℝ) * I)) := by
  have h1 := Real.pi_gt_d20
  have h2 := Real.pi_lt_d20
  refine has_small (lo := 356189643264143 / 10 ^ 19) (hi := 356189643264153 / 10 ^ 19) ?_ ?_ (by norm_num) (by norm_num) (by norm_num [rootF]) (by norm_num [rootF]) (by norm_num [rootF]) (by norm_num [rootF]) (by norm_num [rootF])
  · rw [le_div_iff₀ (by norm_num)]; norm_num at h1 ⊢; linarith
  · rw [div_le_iff₀ (by norm_num)]; norm_num at h2 ⊢; linarith

/-- Enclosure of `e^{2πi/18080}`. -/
def rootB : Ball := ⟨999999939614, 347521304, 2⟩

theorem has_rootB : rootB.Has (exp ((2 * Real.pi / 18080 : ℝ) * I)) := by
  have h1 := Real.pi_gt_d20
  have h2 := Real.pi_lt_d20
  refine has_small (lo := 3475213112378084 / 10 ^ 19) (hi := 3475213112378094 / 10 ^ 19) ?_ ?_ (by norm_num) (by norm_num) (by norm_num [rootB]) (by norm_num [rootB]) (by norm_num [rootB]) (by norm_num [rootB]) (by norm_num [rootB])
  · rw [le_div_iff₀ (by norm_num)]; norm_num at h1 ⊢; linarith
  · rw [div_le_iff₀ (by norm_num)]; norm_num at h2 ⊢; linarith

/-- Enclosure of `e^{2πi/18064}`. -/
def rootW : Ball := ⟨999999939507, 347829118, 2⟩

theorem has_rootW : rootW.Has (exp ((2 * Real.pi / 18064 : ℝ) * I)) := by
  have h1 := Real.pi_gt_d20
  have h2 := Real.pi_lt_d20
  refine has_small (lo := 3478291246224301 / 10 ^ 19) (hi := 3478291246224311 / 10 ^ 19) ?_ ?_ (by norm_num) (by norm_num) (by norm_num [rootW]) (by norm_num [rootW]) (by norm_num [rootW]) (by norm_num [rootW]) (by norm_num [rootW])
  · rw [le_div_iff₀ (by norm_num)]; norm_num at h1 ⊢; linarith
  · rw [div_le_iff₀ (by norm_num)]; norm_num at h2 ⊢; linarith

/-! ## The window -/

/-- The window in units of `1 / unitN`. -/
def hamList : List Nat :=
  [76720000000, 76727148981, 76748595704, 76784339504, 76834379274, 76898713465, 76977340083, 77070256694, 77177460419, 77298947939,
   77434715490, 77584758868, 77749073425, 77927654073, 78120495279, 78327591073, 78548935039, 78784520321, 79034339624, 79298385210,
   79576648901, 79869122078, 80175795683, 80496660217, 80831705744, 81180921885, 81544297824, 81921822308, 82313483644, 82719269700,
   83139167909, 83573165266, 84021248328, 84483403219, 84959615623, 85449870792, 85954153541, 86472448252, 87004738872, 87551008915,
   88111241462, 88685419160, 89273524228, 89875538449, 90491443178, 91121219339, 91764847427, 92422307508, 93093579217, 93778641766,
   94477473935, 95190054081, 95916360133, 96656369596, 97410059550, 98177406653, 98958387138, 99752976816, 100561151077, 101382884890,
   102218152804, 103066928950, 103929187039, 104804900364, 105694041805, 106596583820, 107512498458, 108441757351, 109384331716, 110340192362,
   111309309682, 112291653661, 113287193874, 114295899487, 115317739258, 116352681538, 117400694274, 118461745006, 119535800871, 120622828603,
   121722794535, 122835664599, 123961404326, 125099978851, 126251352908, 127415490838, 128592356585, 129781913698, 130984125335, 132198954261,
   133426362850, 134666313086, 135918766565, 137183684497, 138461027704, 139750756624, 141052831312, 142367211440, 143693856298, 145032724797,
   146383775470, 147746966473, 149122255583, 150509600207, 151908957373, 153320283742, 154743535602, 156178668872, 157625639102, 159084401477,
   160554910816, 162037121574, 163530987844, 165036463358, 166553501488, 168082055248, 169622077295, 171173519933, 172736335109, 174310474419,
   175895889110, 177492530078, 179100347871, 180719292693, 182349314399, 183990362507, 185642386188, 187305334277, 188979155267, 190663797318,
   192359208253, 194065335561, 195782126399, 197509527596, 199247485649, 200995946731, 202754856688, 204524161043, 206303804997, 208093733430,
   209893890905, 211704221668, 213524669647, 215355178461, 217195691414, 219046151502, 220906501412, 222776683525, 224656639919, 226546312366,
   228445642339, 230354571013, 232273039263, 234200987671, 236138356524, 238085085818, 240041115258, 242006384262, 243980831962, 245964397204,
   247957018554, 249958634296, 251969182435, 253988600701, 256016826547, 258053797157, 260099449440, 262153720038, 264216545326, 266287861414,
   268367604149, 270455709117, 272552111645, 274656746803, 276769549406, 278890454017, 281019394945, 283156306254, 285301121758, 287453775029,
   289614199394, 291782327940, 293958093516, 296141428734, 298332265971, 300530537372, 302736174852, 304949110098, 307169274571, 309396599508,
   311631015923, 313872454613, 316120846154, 318376120910, 320638209029, 322907040452, 325182544905, 327464651914, 329753290796, 332048390666,
   334349880442, 336657688840, 338971744384, 341291975402, 343618310032, 345950676222, 348289001733, 350633214144, 352983240849, 355339009062,
   357700445821, 360067477986, 362440032246, 364818035118, 367201412951, 369590091925, 371983998058, 374383057207, 376787195066, 379196337176,
   381610408919, 384029335528, 386453042082, 388881453514, 391314494612, 393752090019, 396194164237, 398640641630, 401091446426, 403546502719,
   406005734469, 408469065509, 410936419545, 413407720158, 415882890806, 418361854828, 420844535445, 423330855764, 425820738777, 428314107368,
   430810884313, 433310992280, 435814353835, 438320891446, 440830527478, 443343184203, 445858783800, 448377248353, 450898499862, 453422460238,
   455949051308, 458478194819, 461009812438, 463543825754, 466080156285, 468618725476, 471159454700, 473702265267, 476247078419, 478793815340,
   481342397151, 483892744917, 486444779649, 488998422305, 491553593792, 494110214972, 496668206662, 499227489634, 501787984622, 504349612323,
   506912293397, 509475948472, 512040498148, 514605862994, 517171963555, 519738720355, 522306053895, 524873884659, 527442133117, 530010719724,
   532579564926, 535148589161, 537717712859, 540286856450, 542855940363, 545424885026, 547993610876, 550562038352, 553130087905, 555697679998,
   558264735106, 560831173723, 563396916360, 565961883551, 568525995854, 571089173852, 573651338159, 576212409418, 578772308309, 581330955546,
   583888271881, 586444178111, 588998595072, 591551443649, 594102644775, 596652119434, 599199788663, 601745573556, 604289395264, 606831175000,
   609370834039, 611908293724, 614443475463, 616976300736, 619506691097, 622034568175, 624559853674, 627082469383, 629602337170, 632119378990,
   634633516884, 637144672985, 639652769517, 642157728798, 644659473245, 647157925373, 649653007800, 652144643249, 654632754548, 657117264635,
   659598096559, 662075173484, 664548418689, 667017755574, 669483107657, 671944398581, 674401552115, 676854492156, 679303142731, 681747428000,
   684187272258, 686622599939, 689053335614, 691479404000, 693900729956, 696317238487, 698728854750, 701135504052, 703537111854, 705933603773,
   708324905585, 710710943226, 713091642795, 715466930557, 717836732945, 720200976560, 722559588177, 724912494745, 727259623390, 729600901416,
   731936256308, 734265615736, 736588907554, 738906059806, 741217000724, 743521658734, 745819962455, 748111840704, 750397222497, 752676037050,
   754948213785, 757213682327, 759472372509, 761724214376, 763969138183, 766207074399, 768437953712, 770661707026, 772878265467, 775087560384,
   777289523349, 779484086165, 781671180859, 783850739694, 786022695164, 788186979999, 790343527166, 792492269872, 794633141567, 796766075944,
   798891006940, 801007868742, 803116595786, 805217122762, 807309384610, 809393316530, 811468853977, 813535932668, 815594488580, 817644457957,
   819685777306, 821718383404, 823742213295, 825757204299, 827763294006, 829760420284, 831748521277, 833727535410, 835697401388, 837658058201,
   839609445122, 841551501714, 843484167827, 845407383602, 847321089473, 849225226169, 851119734714, 853004556431, 854879632944, 856744906177,
   858600318359, 860445812025, 862281330014, 864106815478, 865922211877, 867727462985, 869522512889, 871307305992, 873081787017, 874845901003,
   876599593312, 878342809628, 880075495961, 881797598646, 883509064345, 885209840051, 886899873087, 888579111109, 890247502107, 891904994409,
   893551536678, 895187077917, 896811567471, 898424955024, 900027190608, 901618224597, 903198007714, 904766491030, 906323625965, 907869364292,
   909403658135, 910926459976, 912437722649, 913937399346, 915425443621, 916901809386, 918366450913, 919819322841, 921260380170, 922689578267,
   924106872869, 925512220078, 926905576367, 928286898582, 929656143939, 931013270031, 932358234825, 933690996664, 935011514269, 936319746741,
   937615653562, 938899194595, 940170330086, 941429020665, 942675227347, 943908911536, 945130035020, 946338559981, 947534448986, 948717664997,
   949888171367, 951045931843, 952190910566, 953323072075, 954442381304, 955548803586, 956642304652, 957722850634, 958790408065, 959844943882,
   960886425422, 961914820429, 962930097052, 963932223844, 964921169769, 965896904196, 966859396905, 967808618086, 968744538338, 969667128675,
   970576360522, 971472205718, 972354636518, 973223625589, 974079146019, 974921171309, 975749675380, 976564632572, 977366017644, 978153805775,
   978927972566, 979688494039, 980435346640, 981168507236, 981887953120, 982593662009, 983285612047, 983963781802, 984628150269, 985278696872,
   985915401462, 986538244318, 987147206151, 987742268099, 988323411732, 988890619050, 989443872487, 989983154906, 990508449605, 991019740315,
   991517011199, 992000246857, 992469432321, 992924553059, 993365594976, 993792544412, 994205388143, 994604113383, 994988707781, 995359159427,
   995715456847, 996057589005, 996385545305, 996699315590, 996998890141, 997284259679, 997555415367, 997812348806, 998055052039, 998283517548,
   998497738257, 998697707531, 998883419177, 999054867443, 999212047019, 999354953037, 999483581071, 999597927136, 999697987691, 999783759638,
   999855240319, 999912427520, 999955319472, 999983914844, 999998212751, 999998212751, 999983914844, 999955319472, 999912427520, 999855240319,
   999783759638, 999697987691, 999597927136, 999483581071, 999354953037, 999212047019, 999054867443, 998883419177, 998697707531, 998497738257,
   998283517548, 998055052039, 997812348806, 997555415367, 997284259679, 996998890141, 996699315590, 996385545305, 996057589005, 995715456847,
   995359159427, 994988707781, 994604113383, 994205388143, 993792544412, 993365594976, 992924553059, 992469432321, 992000246857, 991517011199,
   991019740315, 990508449605, 989983154906, 989443872487, 988890619050, 988323411732, 987742268099, 987147206151, 986538244318, 985915401462,
   985278696872, 984628150269, 983963781802, 983285612047, 982593662009, 981887953120, 981168507236, 980435346640, 979688494039, 978927972566,
   978153805775, 977366017644, 976564632572, 975749675380, 974921171309, 974079146019, 973223625589, 972354636518, 971472205718, 970576360522,
   969667128675, 968744538338, 967808618086, 966859396905, 965896904196, 964921169769, 963932223844, 962930097052, 961914820429, 960886425422,
   959844943882, 958790408065, 957722850634, 956642304652, 955548803586, 954442381304, 953323072075, 952190910566, 951045931843, 949888171367,
   948717664997, 947534448986, 946338559981, 945130035020, 943908911536, 942675227347, 941429020665, 940170330086, 938899194595, 937615653562,
   936319746741, 935011514269, 933690996664, 932358234825, 931013270031, 929656143939, 928286898582, 926905576367, 925512220078, 924106872869,
   922689578267, 921260380170, 919819322841, 918366450913, 916901809386, 915425443621, 913937399346, 912437722649, 910926459976, 909403658135,
   907869364292, 906323625965, 904766491030, 903198007714, 901618224597, 900027190608, 898424955024, 896811567471, 895187077917, 893551536678,
   891904994409, 890247502107, 888579111109, 886899873087, 885209840051, 883509064345, 881797598646, 880075495961, 878342809628, 876599593312,
   874845901003, 873081787017, 871307305992, 869522512889, 867727462985, 865922211877, 864106815478, 862281330014, 860445812025, 858600318359,
   856744906177, 854879632944, 853004556431, 851119734714, 849225226169, 847321089473, 845407383602, 843484167827, 841551501714, 839609445122,
   837658058201, 835697401388, 833727535410, 831748521277, 829760420284, 827763294006, 825757204299, 823742213295, 821718383404, 819685777306,
   817644457957, 815594488580, 813535932668, 811468853977, 809393316530, 807309384610, 805217122762, 803116595786, 801007868742, 798891006940,
   796766075944, 794633141567, 792492269872, 790343527166, 788186979999, 786022695164, 783850739694, 781671180859, 779484086165, 777289523349,
   775087560384, 772878265467, 770661707026, 768437953712, 766207074399, 763969138183, 761724214376, 759472372509, 757213682327, 754948213785,
   752676037050, 750397222497, 748111840704, 745819962455, 743521658734, 741217000724, 738906059806, 736588907554, 734265615736, 731936256308,
   729600901416, 727259623390, 724912494745, 722559588177, 720200976560, 717836732945, 715466930557, 713091642795, 710710943226, 708324905585,
   705933603773, 703537111854, 701135504052, 698728854750, 696317238487, 693900729956, 691479404000, 689053335614, 686622599939, 684187272258,
   681747428000, 679303142731, 676854492156, 674401552115, 671944398581, 669483107657, 667017755574, 664548418689, 662075173484, 659598096559,
   657117264635, 654632754548, 652144643249, 649653007800, 647157925373, 644659473245, 642157728798, 639652769517, 637144672985, 634633516884,
   632119378990, 629602337170, 627082469383, 624559853674, 622034568175, 619506691097, 616976300736, 614443475463, 611908293724, 609370834039,
   606831175000, 604289395264, 601745573556, 599199788663, 596652119434, 594102644775, 591551443649, 588998595072, 586444178111, 583888271881,
   581330955546, 578772308309, 576212409418, 573651338159, 571089173852, 568525995854, 565961883551, 563396916360, 560831173723, 558264735106,
   555697679998, 553130087905, 550562038352, 547993610876, 545424885026, 542855940363, 540286856450, 537717712859, 535148589161, 532579564926,
   530010719724, 527442133117, 524873884659, 522306053895, 519738720355, 517171963555, 514605862994, 512040498148, 509475948472, 506912293397,
   504349612323, 501787984622, 499227489634, 496668206662, 494110214972, 491553593792, 488998422305, 486444779649, 483892744917, 481342397151,
   478793815340, 476247078419, 473702265267, 471159454700, 468618725476, 466080156285, 463543825754, 461009812438, 458478194819, 455949051308,
   453422460238, 450898499862, 448377248353, 445858783800, 443343184203, 440830527478, 438320891446, 435814353835, 433310992280, 430810884313,
   428314107368, 425820738777, 423330855764, 420844535445, 418361854828, 415882890806, 413407720158, 410936419545, 408469065509, 406005734469,
   403546502719, 401091446426, 398640641630, 396194164237, 393752090019, 391314494612, 388881453514, 386453042082, 384029335528, 381610408919,
   379196337176, 376787195066, 374383057207, 371983998058, 369590091925, 367201412951, 364818035118, 362440032246, 360067477986, 357700445821,
   355339009062, 352983240849, 350633214144, 348289001733, 345950676222, 343618310032, 341291975402, 338971744384, 336657688840, 334349880442,
   332048390666, 329753290796, 327464651914, 325182544905, 322907040452, 320638209029, 318376120910, 316120846154, 313872454613, 311631015923,
   309396599508, 307169274571, 304949110098, 302736174852, 300530537372, 298332265971, 296141428734, 293958093516, 291782327940, 289614199394,
   287453775029, 285301121758, 283156306254, 281019394945, 278890454017, 276769549406, 274656746803, 272552111645, 270455709117, 268367604149,
   266287861414, 264216545326, 262153720038, 260099449440, 258053797157, 256016826547, 253988600701, 251969182435, 249958634296, 247957018554,
   245964397204, 243980831962, 242006384262, 240041115258, 238085085818, 236138356524, 234200987671, 232273039263, 230354571013, 228445642339,
   226546312366, 224656639919, 222776683525, 220906501412, 219046151502, 217195691414, 215355178461, 213524669647, 211704221668, 209893890905,
   208093733430, 206303804997, 204524161043, 202754856688, 200995946731, 199247485649, 197509527596, 195782126399, 194065335561, 192359208253,
   190663797318, 188979155267, 187305334277, 185642386188, 183990362507, 182349314399, 180719292693, 179100347871, 177492530078, 175895889110,
   174310474419, 172736335109, 171173519933, 169622077295, 168082055248, 166553501488, 165036463358, 163530987844, 162037121574, 160554910816,
   159084401477, 157625639102, 156178668872, 154743535602, 153320283742, 151908957373, 150509600207, 149122255583, 147746966473, 146383775470,
   145032724797, 143693856298, 142367211440, 141052831312, 139750756624, 138461027704, 137183684497, 135918766565, 134666313086, 133426362850,
   132198954261, 130984125335, 129781913698, 128592356585, 127415490838, 126251352908, 125099978851, 123961404326, 122835664599, 121722794535,
   120622828603, 119535800871, 118461745006, 117400694274, 116352681538, 115317739258, 114295899487, 113287193874, 112291653661, 111309309682,
   110340192362, 109384331716, 108441757351, 107512498458, 106596583820, 105694041805, 104804900364, 103929187039, 103066928950, 102218152804,
   101382884890, 100561151077, 99752976816, 98958387138, 98177406653, 97410059550, 96656369596, 95916360133, 95190054081, 94477473935,
   93778641766, 93093579217, 92422307508, 91764847427, 91121219339, 90491443178, 89875538449, 89273524228, 88685419160, 88111241462,
   87551008915, 87004738872, 86472448252, 85954153541, 85449870792, 84959615623, 84483403219, 84021248328, 83573165266, 83139167909,
   82719269700, 82313483644, 81921822308, 81544297824, 81180921885, 80831705744, 80496660217, 80175795683, 79869122078, 79576648901,
   79298385210, 79034339624, 78784520321, 78548935039, 78327591073, 78120495279, 77927654073, 77749073425, 77584758868, 77434715490,
   77298947939, 77177460419, 77070256694, 76977340083, 76898713465, 76834379274, 76784339504, 76748595704, 76727148981, 76720000000]

/-- `e^{2πi/1129}`. -/
def stepW : Ball := ⟨999984513928, 5565237261, 173⟩

theorem has_stepW : stepW.Has (exp ((2 * Real.pi / 1129 : ℝ) * I)) := by
  have h := has_fpow has_rootW (norm_cis _) 5 16 (by norm_num)
  rw [cis_pow] at h
  have e : ((16 : Nat) * (2 * Real.pi / 18064) : ℝ) = 2 * Real.pi / 1129 := by norm_num; ring
  rw [e] at h
  have e2 : fpow rootW 5 16 = stepW := by decide +kernel
  rwa [e2] at h

/-- The entry `c` is near the window at the angle of `P`. -/
def nearW (c : Nat) (P : Ball) : Bool :=
  decide (|(538360000000 - (c : Int)) * scale - 461640000000 * P.re| + 461640000000 * P.err ≤ 300000 * scale) && Nat.ble c unitN

/-- All entries from the angle of `P` on. -/
noncomputable def hamRun (l : List Nat) : Ball → Bool :=
  List.rec (motive := fun _ => Ball → Bool) (fun _ => true) (fun c _ ih P => nearW c P && forceB (turn P stepW) ih) l

theorem hamRun_ok : hamRun hamList one = true := by decide +kernel

theorem hamList_length : hamList.length = 1130 := by decide +kernel

/-! ## The effective window -/

/-- The window `m` steps later, ones behind its end. -/
def laterList (m : Nat) : List Nat := hamList.drop (282 * m) ++ List.replicate (282 * m) unitN

/-- A product in units. -/
def mulN (p h : Nat) : Nat := p * h / unitN

/-- The effective window in units of `1 / unitN`. -/
def effList : List Nat :=
  [1710155589, 1710155589, 22295767731, 22303483292, 22314014022, 22327355298, 22343501103, 22362444032, 22384175295, 22408684722,
   22435960761, 22465990496, 22498759645, 22534252565, 22572452267, 22613340421, 22656897361, 22703102101, 22751932344, 22803364489,
   22857373646, 22913933647, 22973017062, 23034595206, 23098638161, 23165114782, 23233992723, 23305238441, 23378817225, 23454693200,
   23532829357, 23613187562, 23695728581, 23780412096, 23867196724, 23956040042, 24046898603, 24139727961, 24234482691, 24331116412,
   24429581809, 24529830658, 24631813849, 24735481410, 24840782532, 24947665594, 25056078189, 25165967149, 25277278571, 25389957847,
   25503949684, 25619198139, 25735646642, 25853238026, 25971914552, 26091617944, 26212289411, 26333869678, 26456299020, 26579517282,
   26703463920, 26828078022, 26953298343, 27079063331, 27205311163, 27331979772, 27459006879, 27586330019, 27713886582, 27841613833,
   27969448951, 28097329057, 28225191241, 28352972603, 28480610274, 28608041454, 28735203440, 28862033655, 28988469684, 29114449301,
   29239910502, 29364791534, 29489030926, 29612567520, 29735340501, 29857289426, 29978354255, 30098475382, 30217593661, 30335650438,
   30452587579, 30568347500, 30682873193, 30796108255, 30907996920, 31018484079, 31127515313, 31235036920, 31340995938, 31445340171,
   31548018221, 31648979507, 31748174292, 31845553709, 31941069782, 32034675455, 32126324609, 32215972090, 32303573727, 32389086359,
   32472467849, 32553677113, 32632674137, 32709419991, 32783876861, 32856008053, 32925778025, 32993152392, 33058097954, 33120582704,
   33180575850, 33238047824, 33292970304, 33345316221, 33395059778, 33442176459, 33486643041, 33528437610, 33567539566, 33603929637,
   33637589889, 33668503730, 33696655925, 33722032596, 33744621238, 33764410716, 33781391276, 33795554548, 33806893552, 33815402700,
   33821077795, 33823916043, 33823916043, 33821077795, 33815402700, 33806893553, 33795554548, 33781391275, 33764410716, 33744621238,
   33722032596, 33696655925, 33668503730, 33637589889, 33603929637, 33567539566, 33528437610, 33486643041, 33442176459, 33395059778,
   33345316221, 33292970304, 33238047824, 33180575850, 33120582704, 33058097954, 32993152392, 32925778025, 32856008054, 32783876861,
   32709419992, 32632674137, 32553677114, 32472467849, 32389086359, 32303573728, 32215972090, 32126324610, 32034675455, 31941069782,
   31845553709, 31748174292, 31648979507, 31548018221, 31445340171, 31340995938, 31235036921, 31127515313, 31018484079, 30907996920,
   30796108255, 30682873193, 30568347500, 30452587579, 30335650438, 30217593661, 30098475382, 29978354255, 29857289426, 29735340501,
   29612567520, 29489030926, 29364791534, 29239910502, 29114449301, 28988469684, 28862033655, 28735203440, 28608041455, 28480610275,
   28352972603, 28225191241, 28097329056, 27969448952, 27841613834, 27713886582, 27586330020, 27459006879, 27331979773, 27205311164,
   27079063331, 26953298343, 26828078022, 26703463920, 26579517282, 26456299020, 26333869679, 26212289411, 26091617944, 25971914553,
   25853238026, 25735646643, 25619198140, 25503949684, 25389957847, 25277278572, 25165967149, 25056078189, 24947665594, 24840782532,
   24735481410, 24631813849, 24529830658, 24429581809, 24331116412, 24234482692, 24139727962, 24046898603, 23956040042, 23867196724,
   23780412096, 23695728581, 23613187563, 23532829357, 23454693201, 23378817225, 23305238442, 23233992723, 23165114783, 23098638161,
   23034595206, 22973017062, 22913933648, 22857373646, 22803364489, 22751932344, 22703102102, 22656897361, 22613340421, 22572452268,
   22534252566, 22498759645, 22465990497, 22435960762, 22408684722, 22384175296, 22362444033, 22343501103, 22327355299, 22314014023,
   22303483293, 22295767731, 22290870568, 22288793637, 290503917726, 290469169071, 290417053335, 290347579212, 290260758293, 290156605058,
   290035136878, 289896374009, 289740339590, 289567059632, 289376563019, 289168881498, 288944049670, 288702104987, 288443087743, 288167041059,
   287874010881, 287564045968, 287237197876, 286893520951, 286533072320, 286155911871, 285762102243, 285351708816, 284924799691, 284481445673,
   284021720266, 283545699643, 283053462641, 282545090737, 282020668028, 281480281220, 280924019602, 280351975029, 279764241903, 279160917148,
   278542100191, 277907892944, 277258399772, 276593727478, 275913985278, 275219284773, 274509739928, 273785467048, 273046584748, 272293213928,
   271525477750, 270743501608, 269947413099, 269137341998, 268313420228, 267475781831, 266624562937, 265759901738, 264881938456, 263990815309,
   263086676483, 262169668103, 261239938193, 260297636654, 259342915221, 258375927436, 257396828615, 256405775811, 255402927781, 254388444950,
   253362489379, 252325224727, 251276816217, 250217430602, 249147236123, 248066402478, 246975100782, 245873503533, 244761784571, 243640119043,
   242508683366, 241367655184, 240217213335, 239057537813, 237888809723, 236711211248, 235524925608, 234330137020, 233127030658, 231915792617,
   230696609870, 229469670226, 228235162298, 226993275453, 225744199779, 224488126038, 223225245637, 221955750571, 220679833397, 219397687186,
   218109505484, 216815482269, 215515811914, 214210689146, 212900308999, 211584866782, 210264558030, 208939578468, 207610123971, 206276390518,
   204938574157, 203596870959, 202251476985, 200902588234, 199550400615, 198195109897, 196836911674, 195476001324, 194112573966, 192746824426,
   191378947190, 190009136371, 188637585665, 187264488315, 185890037067, 184514424139, 183137841174, 181760479209, 180382528629, 179004179137,
   177625619708, 176247038560, 174868623109, 173490559937, 172113034754, 170736232361, 169360336612, 167985530382, 166611995530, 165239912861,
   163869462095, 162500821830, 161134169509, 159769681383, 158407532485, 157047896585, 155690946169, 154336852399, 152985785084, 151637912647,
   150293402093, 148952418983, 147615127397, 146281689905, 144952267545, 143627019783, 142306104491, 140989677917, 139677894656, 138370907625,
   137068868034, 135771925361, 134480227325, 133193919859, 131913147090, 130638051308, 129368772949, 128105450564, 126848220801, 125597218382,
   124352576079, 123114424695, 121882893041, 120658107916, 119440194089, 118229274276, 117025469126, 115828897199, 114639674949, 113457916707,
   112283734667, 111117238866, 109958537170, 108807735261, 107664936620, 106530242514, 105403751985, 104285561834, 103175766610, 102074458601,
   100981727819, 99897661996, 98822346564, 97755864658, 96698297099, 95649722388, 94610216700, 93579853877, 92558705423, 91546840493,
   90544325894, 89551226078, 88567603140, 87593516810, 86629024457, 85674181082, 84729039319, 83793649432, 82868059317, 81952314502,
   81046458144, 80150531039, 79264571613, 78388615933, 77522697708, 76666848291, 75821096684, 74985469546, 74159991193, 73344683608,
   72539566448, 71744657047, 70959970426, 70185519307, 69421314109, 68667362970, 67923671749, 67190244041, 66467081184, 65754182274,
   65051544174, 64359161529, 63677026780, 63005130170, 62343459770, 61692001482, 61050739064, 60419654136, 59798726205, 59187932674,
   58587248865, 57996648032, 57416101382, 56845578091, 56285045324, 55734468254, 55193810083, 54663032060, 54142093504, 53630951820,
   53129562528, 52637879279, 52155853879, 51683436311, 51220574760, 50767215633, 50323303588, 49888781550, 49463590743, 49047670714,
   48640959352, 48243392920, 47854906077, 47475431909, 47104901947, 46743246203, 46390393189, 46046269952, 45710802096, 45383913810,
   45065527901, 44755565815, 44453947674, 44160592297, 43875417235, 43598338797, 43329272082, 43068131004, 42814828330, 42569275700,
   42331383667, 42101061720, 41878218321, 41662760929, 41454596037, 41253629199, 535139981212, 532555768989, 529964305370, 527365780762,
   524760385740, 522148311037, 519529747519, 516904886163, 514273918044, 511637034311, 508994426166, 506346284851, 503692801621, 501034167729,
   498370574408, 495702212846, 493029274170, 490351949430, 487670429572, 484984905424, 482295567677, 479602606863, 476906213338, 474206577260,
   471503888574, 468798336990, 466090111966, 463379402685, 460666398042, 457951286622, 455234256677, 452515496118, 449795192486, 447073532937,
   444350704225, 441626892684, 438902284203, 436177064218, 433451417684, 430725529063, 427999582306, 425273760829, 422548247499, 419823224622,
   417098873912, 414375376486, 411652912838, 408931662826, 406211805652, 403493519849, 400776983257, 398062373011, 395349865523, 392639636463,
   389931860746, 387226712514, 384524365113, 381824991089, 379128762160, 376435849207, 373746422255, 371060650455, 368378702076, 365700744478,
   363026944106, 360357466467, 357692476124, 355032136668, 352376610715, 349726059885, 347080644788, 344440525009, 341805859093, 339176804533,
   336553517753, 333936154096, 331324867810, 328719812029, 326121138768, 323528998904, 320943542162, 318364917105, 315793271117, 313228750396,
   310671499932, 308121663506, 305579383669, 303044801728, 300518057747, 297999290517, 295488637560, 292986235105, 290492218088, 288006720131,
   285529873535, 283061809272, 280602656966, 278152544892, 275711599957, 273279947697, 270857712264, 268445016413, 266041981496, 263648727453,
   261265372801, 258892034622, 256528828560, 254175868808, 251833268103, 249501137712, 247179587428, 244868725562, 242568658932, 240279492859,
   238001331157, 235734276127, 233478428550, 231233887678, 229000751231, 226779115386, 224569074775, 222370722474, 220184150004, 218009447319,
   215846702802, 213696003261, 211557433924, 209431078432, 207317018836, 205215335591, 203126107556, 201049411981, 198985324514, 196933919187,
   194895268420, 192869443016, 190856512153, 188856543386, 186869602646, 184895754231, 182935060808, 180987583411, 179053381438, 177132512649,
   175225033163, 173330997463, 171450458385, 169583467128, 167730073243, 165890324639, 164064267584, 162251946697, 160453404955, 158668683693,
   156897822601, 155140859724, 153397831472, 151668772607, 149953716258, 148252693911, 146565735421, 144892869004, 143234121249, 141589517112,
   139959079922, 138342831383, 136740791580, 135152978978, 133579410425, 132020101161, 130475064814, 128944313411, 127427857377, 125925705541,
   124437865143, 122964341832, 121505139680, 120060261178, 118629707248, 117213477242, 115811568957, 114423978630, 113050700952, 111691729070,
   110347054593, 109016667603, 107700556658, 106398708797, 105111109553, 103837742955, 102578591538, 101333636348, 100102856955, 98886231455,
   97683736482, 96495347215, 95321037385, 94160779285, 93014543782, 91882300320, 90764016932, 89659660250, 88569195515, 87492586584,
   86429795939, 85380784703, 84345512643, 83323938187, 82316018427, 81321709135, 80340964772, 79373738499, 78419982189, 77479646435,
   76552680566, 75639032653, 74738649526, 73851476784, 72977458801, 72116538750, 71268658602, 70433759149, 69611780012, 68802659650,
   68006335379, 67222743382, 66451818721, 65693495352, 64947706137, 64214382856, 63493456226, 62784855905, 62088510516, 61404347653,
   60732293900, 60072274841, 59424215078, 58788038240, 58163667004, 57551023103, 56950027345, 56360599626, 55782658944, 55216123415,
   54660910288, 54116935958, 53584115984, 53062365101, 52551597239, 52051725533, 51562662346, 51084319277, 50616607180, 50159436180,
   49712715689, 49276354419, 48850260401, 48434340999, 48028502925, 47632652262, 47246694468, 46870534403, 46504076340, 46147223982,
   45799880480, 45461948447, 45133329976, 44813926654, 44503639584, 44202369395, 43910016263, 43626479926, 43351659700, 43085454496,
   42827762841, 42578482886, 42337512431, 42104748937, 41880089545, 41663431092, 41454670127, 41253702930, 535148589161, 532579564926,
   530010719724, 527442133117, 524873884659, 522306053895, 519738720355, 517171963555, 514605862994, 512040498148, 509475948472, 506912293397,
   504349612323, 501787984622, 499227489634, 496668206662, 494110214972, 491553593792, 488998422305, 486444779649, 483892744917, 481342397151,
   478793815340, 476247078419, 473702265267, 471159454700, 468618725476, 466080156285, 463543825754, 461009812438, 458478194819, 455949051308,
   453422460238, 450898499862, 448377248353, 445858783800, 443343184203, 440830527478, 438320891446, 435814353835, 433310992280, 430810884313,
   428314107368, 425820738777, 423330855764, 420844535445, 418361854828, 415882890806, 413407720158, 410936419545, 408469065509, 406005734469,
   403546502719, 401091446426, 398640641630, 396194164237, 393752090019, 391314494612, 388881453514, 386453042082, 384029335528, 381610408919,
   379196337176, 376787195066, 374383057207, 371983998058, 369590091925, 367201412951, 364818035118, 362440032246, 360067477986, 357700445821,
   355339009062, 352983240849, 350633214144, 348289001733, 345950676222, 343618310032, 341291975402, 338971744384, 336657688840, 334349880442,
   332048390666, 329753290796, 327464651914, 325182544905, 322907040452, 320638209029, 318376120910, 316120846154, 313872454613, 311631015923,
   309396599508, 307169274571, 304949110098, 302736174852, 300530537372, 298332265971, 296141428734, 293958093516, 291782327940, 289614199394,
   287453775029, 285301121758, 283156306254, 281019394945, 278890454017, 276769549406, 274656746803, 272552111645, 270455709117, 268367604149,
   266287861414, 264216545326, 262153720038, 260099449440, 258053797157, 256016826547, 253988600701, 251969182435, 249958634296, 247957018554,
   245964397204, 243980831962, 242006384262, 240041115258, 238085085818, 236138356524, 234200987671, 232273039263, 230354571013, 228445642339,
   226546312366, 224656639919, 222776683525, 220906501412, 219046151502, 217195691414, 215355178461, 213524669647, 211704221668, 209893890905,
   208093733430, 206303804997, 204524161043, 202754856688, 200995946731, 199247485649, 197509527596, 195782126399, 194065335561, 192359208253,
   190663797318, 188979155267, 187305334277, 185642386188, 183990362507, 182349314399, 180719292693, 179100347871, 177492530078, 175895889110,
   174310474419, 172736335109, 171173519933, 169622077295, 168082055248, 166553501488, 165036463358, 163530987844, 162037121574, 160554910816,
   159084401477, 157625639102, 156178668872, 154743535602, 153320283742, 151908957373, 150509600207, 149122255583, 147746966473, 146383775470,
   145032724797, 143693856298, 142367211440, 141052831312, 139750756624, 138461027704, 137183684497, 135918766565, 134666313086, 133426362850,
   132198954261, 130984125335, 129781913698, 128592356585, 127415490838, 126251352908, 125099978851, 123961404326, 122835664599, 121722794535,
   120622828603, 119535800871, 118461745006, 117400694274, 116352681538, 115317739258, 114295899487, 113287193874, 112291653661, 111309309682,
   110340192362, 109384331716, 108441757351, 107512498458, 106596583820, 105694041805, 104804900364, 103929187039, 103066928950, 102218152804,
   101382884890, 100561151077, 99752976816, 98958387138, 98177406653, 97410059550, 96656369596, 95916360133, 95190054081, 94477473935,
   93778641766, 93093579217, 92422307508, 91764847427, 91121219339, 90491443178, 89875538449, 89273524228, 88685419160, 88111241462,
   87551008915, 87004738872, 86472448252, 85954153541, 85449870792, 84959615623, 84483403219, 84021248328, 83573165266, 83139167909,
   82719269700, 82313483644, 81921822308, 81544297824, 81180921885, 80831705744, 80496660217, 80175795683, 79869122078, 79576648901,
   79298385210, 79034339624, 78784520321, 78548935039, 78327591073, 78120495279, 77927654073, 77749073425, 77584758868, 77434715490,
   77298947939, 77177460419, 77070256694, 76977340083, 76898713465, 76834379274, 76784339504, 76748595704, 76727148981, 76720000000]

theorem effList_eq : effList = List.zipWith mulN (List.zipWith mulN (List.zipWith mulN (List.zipWith mulN hamList (laterList 1)) (laterList 2)) (laterList 3)) (laterList 4) := by
  decide +kernel

theorem effList_sum : effList.sum ≤ 184666160759588 := by decide +kernel

/-- The first moment around sample 659, for the samples from `k` on. -/
def moment : List Nat → Nat → Nat
  | [], _ => 0
  | c :: l, k => c * ((k : Int) - 659).natAbs + moment l (k + 1)

theorem effList_moment : moment effList 0 ≤ 39757575433099590 := by decide +kernel

/-! ## The detectors -/

/-- What the detectors get. -/
def rows : List Row :=
  [
   ⟨697, 7, [⟨18, 178359, 182976, 5955⟩, ⟨20, 0, 30110, 1459⟩, ⟨22, 0, 60246, 5353⟩, ⟨24, 0, 9888, 1316⟩, ⟨31, 0, 7410, 3192⟩, ⟨34, 0, 13548, 4104⟩, ⟨38, 0, 10826, 3807⟩, ⟨42, 0, 9020, 3549⟩]⟩,
   ⟨770, 8, [⟨18, 0, 31751, 1345⟩, ⟨20, 166176, 175928, 5192⟩, ⟨22, 0, 26808, 1212⟩, ⟨24, 0, 57604, 4709⟩, ⟨31, 0, 13747, 1171⟩, ⟨34, 0, 3964, 932⟩, ⟨38, 0, 3087, 864⟩, ⟨42, 0, 2532, 805⟩]⟩,
   ⟨852, 9, [⟨18, 0, 62224, 5337⟩, ⟨20, 0, 32618, 1304⟩, ⟨22, 175303, 182384, 4846⟩, ⟨24, 0, 29748, 1187⟩, ⟨31, 0, 10323, 3097⟩, ⟨34, 0, 18089, 3794⟩, ⟨38, 0, 13524, 3536⟩, ⟨42, 0, 10809, 3311⟩]⟩,
   ⟨941, 9, [⟨18, 0, 9920, 1386⟩, ⟨20, 0, 60897, 4933⟩, ⟨22, 0, 30976, 1266⟩, ⟨24, 179376, 184124, 4523⟩, ⟨31, 0, 12978, 2168⟩, ⟨34, 0, 5715, 1007⟩, ⟨38, 0, 4077, 943⟩, ⟨42, 0, 3168, 887⟩]⟩,
   ⟨1209, 12, [⟨18, 0, 10303, 2888⟩, ⟨20, 0, 9938, 1969⟩, ⟨22, 0, 15060, 2693⟩, ⟨24, 0, 15505, 1805⟩, ⟨31, 182884, 184668, 936⟩, ⟨34, 0, 39203, 2253⟩, ⟨38, 0, 16483, 2140⟩, ⟨42, 0, 10572, 2040⟩]⟩,
   ⟨1336, 13, [⟨18, 0, 13447, 4166⟩, ⟨20, 0, 4082, 1077⟩, ⟨22, 0, 17972, 3873⟩, ⟨24, 0, 5727, 1005⟩, ⟨31, 0, 49812, 1571⟩, ⟨34, 166694, 180525, 3199⟩, ⟨38, 0, 62208, 3024⟩, ⟨42, 0, 27653, 2867⟩]⟩,
   ⟨1477, 15, [⟨18, 0, 10837, 3834⟩, ⟨20, 0, 3164, 961⟩, ⟨22, 0, 13590, 3575⟩, ⟨24, 0, 4072, 897⟩, ⟨31, 0, 12895, 2493⟩, ⟨34, 0, 62224, 2973⟩, ⟨38, 173286, 184046, 2814⟩, ⟨42, 0, 60843, 2672⟩]⟩,
   ⟨1633, 16, [⟨18, 0, 9015, 3578⟩, ⟨20, 0, 2588, 899⟩, ⟨22, 0, 10840, 3352⟩, ⟨24, 0, 3168, 842⟩, ⟨31, 0, 8304, 2389⟩, ⟨34, 0, 27836, 2816⟩, ⟨38, 0, 62224, 2674⟩, ⟨42, 172461, 184123, 2544⟩]⟩]

/-- `e^{2πik/1130}` for the bins of the detectors. -/
def binBall : Nat → Ball
  | 18 => ⟨994995561848, 99919123421, 4706⟩
  | 20 => ⟨993822891159, 110977746102, 4910⟩
  | 22 => ⟨992527316181, 122022644364, 5099⟩
  | 24 => ⟨991108997031, 133052452311, 5292⟩
  | 31 => ⟨985180938820, 171518269208, 5983⟩
  | 34 => ⟨982182907837, 187927470428, 6306⟩
  | 38 => ⟨977760566920, 209724276986, 6709⟩
  | 42 => ⟨972854568851, 231417341699, 7133⟩
  | _ => one

theorem has_binBall {k : Nat} (hk : k ∈ binList) : (binBall k).Has (exp ((2 * Real.pi * k / 1130 : ℝ) * I)) := by
  have h := has_fpow has_rootB (norm_cis _) 10 (16 * k) (by simp [binList] at hk; omega)
  rw [cis_pow] at h
  have e : ((16 * k : Nat) * (2 * Real.pi / 18080) : ℝ) = 2 * Real.pi * k / 1130 := by push_cast; ring
  rw [e] at h
  have e2 : ∀ k ∈ binList, fpow rootB 10 (16 * k) = binBall k := by decide +kernel
  rwa [e2 k hk] at h

/-- The effective window in 34 rows of 34. -/
def effRows : List (List Nat) := chunks 34 34 (effList ++ List.replicate 26 0)

/-- The rows packed. -/
def effPacks : List Nat :=
  [23333545961417107644986158415564358965630433592948813385350955784957468292474375757527908716195152638752697318980925579232248924979898241305171670696735614368753045704273818478707870077601330733077653189007954618072879503710900523133672399164145903070966399724140575257285575942668815046310929311326765155263828535010838313816932008835930477011758351850251466871995164948431580657852760814774804757085393891740051398083283023966737203479307051164358190846988589396107178206216376099664237308006119326954201115218543885623093064837920060359794080404193585169733118295031800406264739999653011686740220452206274461486285225340092528085986562565877971920130879487493798003809308207699053654163031640870949250877341605069560139729513425654468685044564489460344153036003877265145726562793628872065085005222851020322011634566410083046825980266960990631990559232978211742309648762834698609885192107096791618270999075805621727405249868148130303309399165522206938859215771847261082569399982978161434803470514318345967720070313207727125768097604525017654,
   23333545961417107644986158415564418731100457552570847167977225427039353649737196786674176828671200200571421414675453933630770899284444710970297181329138336822155103827795570897144369444234175973899463289051584553956643882476376558278619490048376252693557457631632461777951592027579862125199446737418676633980911748664814614423741713440410171259185235252122176702499681922955198121884500044221507110035889142606033623634271233323338592750269856024526117278184461404549466468507837352374913496324955137909923719851218541044074469997446067367440875981235204089372350405320735206553793707832913050067318139800647277815760464998183543273391593836172473636271824707139701870086483201055439556572044789655061785733952900814445900645980559852457577175573763873503196650441294419548194812137108648596705285781546537180886827835581564817365362950186553543816181012142340101141549141744583165593138565233720781123783849624810631229402002943640001121945071073361921044112195767096684536369211827696584492511519540754606600937058438833564039851083690213043,
   304205842113216588541895409227039408765355394267171695923413215067171972893716641866692621967019578082522930628476190690109963722060061987157372072965596667492152302240712239108702767551772032024063048573552474360263305603530847705283649339712538476328034793317388172680464644369938900930211329567567019769907142680861233425774010655969831731439750382536301414821935339354977772404703160075923496487513625822181316210364513506094299066585023795523733131261673850267965123081215721962742983812962047221483384546389732703520077978309046275960274102774796218125337629710749501005455628599150878892775942933076114342711720433779951594445759759813782715126043643673111536031277099105690885478157060797115419900197398943689663994677311325664830238803716706075913000923638004705754701033021279761960553995359609499914209016437857733034255454964298259024041089087649598723114856470777601701225980261027860458775233824992555588344750863399123970511257211382695943368527059292777761319068524888647082830952808094740727898450411849629189130777147451195257,
   304311114053600030074757280925083447422039785209286695220848016942530356812270779079823219520343522088340580049726466674960292448089962315293186234722584205577149919442554095796260760116585145664251443461895038342157891153028766270517591065112816326129154389048198320518348993393048157833172905252922344093096383858609444463768754750131187355018558764299062217488357143599132568037777626494778893927070691924609911566965768557162187026222642548660126392328995389791134917100277860378250742241849731027833015237460421835284839157638241209037064390851118777387853339073958516304427710954381924981538750861783964416393857507661213739259274474328352529701387863668760908576235187293735647266043523878326137697949703019594974882875266270134735925193274237084470499757313668720804952724387223928272965442532799248149606028706883917685313561275886128706117864877568254757444451044759728561825807516147150822473314629652897038437447940489239609142968946804039846208732106952660638299099575332022791631924918778142223281925370264736775497604781233378826,
   304454796461237545901973798058023376663450520739208820384904065275094476597493863990229799819908327191494516429619498761827038842673209263987586207932564033614206250279080184714123035154919431445460458624258403636316413794347527710627195654472026337976029990977248431484762424586605196407117799617581788036341452509147501810000579109019533491503957596667619854528095379420521742681912849644189509041204069833352154829137300288506464669709942236199194186758153872854872502069814230991762762370239267064166061725308040179897095981177917092361900864578618638163554040871291857410919422457747555022570884854403656523282096183598288301109643366211565521338593651157514408742817859053331257408666299652083255258682324611585134536670487918702629191679912517463309385704965604072533422037423187105271856033766700083625944134099096781976842407377555181440757727713318239669366649635417547550197131921112738231283362080249006432746583465529788203879784960265120127955414727358307741630834414900997775145028706440172583306398397001073702408586266718505520,
   304636826259422154813726721818226147182771225692340361942960989461624958928626389899237899271638781362295063687814240344266163240033183903420354390323715839705437398382593675261527691737150125638739327488087945399211076213679191145905581794130133324265795450696356756362638217322199466381702369931865428316030351717729750269025978299704168462247677218635556445826888566617435360990967883545133417323613276824209698042406785879708947402644212442761047953539650002615776207780381091857657508461711336526368237678238159185979643494408978209508620308509879273930606659678718264330383491993550393779702010031879329202542520815641648457524195390226675482455622909413975068751256943480187770371129115823594738728184147331885469694598476707249430739746566996437671120003568739235809532151516776068370754297092602389562328459925768928883640230695854184594072836737366214702102795069705985167144824369441538903772852849922911181540164021319013616162321407185444308362633778536406352728246134894042923162627490210231212179813653208088566187302627883262456,
   304857121351561621045474338403933580818953903900742075045572280618397481691443406858202787310066767662547518364876540566283403934209792682466957330315992809734673648155178497503232235024582375518254778130461110178146697774455736254843043389808729827950613113159132461604616041714722607532212309188886113995832698630075258988183333013842741463858671082528064157894469349994225208701358663679589434733999205428451627492168492889165557685687977361233487072908119753229886448757716795703303954081493060854821953537940751731447977206358572446125830105766840947612710414554119644643642642817028426699656706134948333446248554222128732061674058063609771547166437708836890997344155573058025772424893506031354401420595474463733363485781023655572088295414054713602025896186658836862870599933806427249621389382560263501779200431452418498168982420328916811143552910781115832059620892339076330296866689575228751265025530224467928273500266532757536744044087591043597527621386343876433973545366935642154267663778293370168357532268881766466735181305206274744757,
   305115580703043096693538504105320297940610662510104473893328211198470240613369972230085961262867592970613874592325428203263967198800530911650562242624341252365993776097857924228615181097608360989275500529064059740352133338818693331530933568811237034692528175219146416907383082397240489618849706028554683715650410521688810854081738271973176158340739926651147581524740829475513719242763134546777148689198561388197017914266403841948956791704270730990200172319251005476295603073924448656904414765538341533315681671759708043222297421967239339988769255045890336912175448999226071809723187143776778797409059625443198700459091895066072953084768520373455753995099740276334620837049040790963035833933225751969751054218115432353317219790642670290404501684273583811730794719752938642421179006387919025454816719932280255709395461846651701056314661324464625923523023009015455963201990956180366310986471803531663947022874628578120803528491087966541826109287540155467603579859756773161554558836792981342159339993961018612675375894833877339452911680645731601408,
   305412084382165442922898167847522681137966637555599898966605851448278885739821599876830576651947386120649930902349267922237885815834031286255615718177190074575194791500421821107783687152624945307765549172921005393269517453072552075492678437057203442548012779537248081819573919201827021408423244223914740666777718135799531900142963957561285186261076531239540947426236989625358837430841509075635199140673011853989817477151064459033771706181570497845806882619511633085825169980691307688172034637938221418335448603935236669788487124392342784410887661557011406999899322950342532713681035708862927975994827851175052978935471252956438838624415825983237889552876439880445203284650991262570240309827205733047095749626222054452590694861442854299695292875989245311550226205146932343714896485030506067519116159285254925876424579707813805307457874570824948766252466992379649236568437036355043169127199831722859258737443393968180886543894718145485944387557843756691282020486749019510463622363797680147144560966489673641093184360929443840990316628384958906368,
   305746493628359765313511908762353814709438561129675452544939797284109614245582423848615955612948224031704185401680203864195002384928866320255399607009473160396873614440172389740440470615621492120007484951593567007066319451811523329109187026801714757242091387089399902888288759064224616303798188602736814721770834080370819749494137080796309753402101066534220545604364527877544429387365663103716279860011052567427571423172180990267084736201760949516487518495271530136950250698093434850451831868054185534579380350265000600972937186361160919595368508001024727004343068315914367708499560669719317513585655596781747674441381917530897638290729402354138931200897940736843873387323923014200449712281760222969046665180625091426254731833919175275892174384598559622331706595926538500663196579817727832837486942333132992217747656209115497279175273716087680843141883200826227267827559929909211732959151860504072126282968694308501607993968060537231722174268963242581361777117909765868524106870967549417724604223515014062709705582375225787794936113228746326016,
   306118650824901199721788921159617508867026610156924218076856932476696374790496085269441548918959561873007881399005755937035567174821222821556830370907034170378955334365948692542871866700844731553726572619167347826482133787993473490866788100244321983897671680482742221224112217687782377801362929749860399262814241447667762622111678283884644628059450945990382494135398616136137177031515118337442752820304771714370866569534856550241007977769139284714151484877859766671191473892670341272249663411541072835695307511613099544548875498780356642805228559147394634449317260219434236795620415881681712643316591380813323208085007921531064683715303971995847452283842443968082299334777687232706916036649566053784562638940903911570518014504437116461400554618107278653591536757210284176099845724066234743036672313617422220646515735223877012006254584881647411300274411044691194335459797375024188419046141354492910160124968843546619943786473695384142781047518731237007527197014152415361597529702796088272530282278981110602510284398806858980505497513390860402688,
   306528379744502839527350149785282081887955944024206667192281584417493727109380210277033121131257701511633240697284832883644720165949492177443982473818070869352805786591535095683246324782457717345082272078904778278406574912479557306206258262422811508170495845110493428066999418628123753764300430316288481644299661072415393166598608382684432493581555402550795446563062399970618679863363469809048340709594483165146304082610609796251070636057634198408560375058923310703010954056116558148949969848928885455876541712895837989317746362075157449434925665250222911886499319022896688736975646558629374390611198193272945322329291215619543592867577626516478017951594929664770952924956675484588438657119008840869371199497411729116621177769214395942110620480496622388259090637469002581949672107182800265392566972629138744223354353423668246686668771254545636221867459732826363338762407908836098379677703217299806020166959306341029217425466914388684304411576342188582179218519734576669119500767005410852237808027014203167866462003948781074828188766158538670080,
   306975485522027521494499274792794384320069226061937728597733958364984637016814415957392880287470172998452660034504694492135524252743219128669869489476095435703338277360586074306130382329290748899296727292501304882050384445524769503648732423063294945845678184969536921876721736633734896172864144101195649214615657922259774504763588909994830471464823123402791387617555037463286574620023191353566069758875880586310420752679032462352729787157112518538309136008384514930835074706977068093052082696893849540549950796103996595889052432083020664586150433222445099881746543210480328258093993785827533404206297770307860261422249992484694859908725099755991711218431878769793103395423099862487937309081796646969885864834952739013755849324597141948120077744923166750072330527527777808621137892626852384139911021015498346221669635927227485349674819089921351712048801589300590327298084417970775928951560223717581866049901531480247215025133110867811311596291309764131778278004004959227888328758152724484089820529070078526103892791782318730649231859520433553408,
   307459754722708361118545249314794738468405863418295573121064537382864159967116554112089963051612570900058894604069420059252147272907416645851421312589282568114157432327859310297349656288839684574602027939129839566766365891396511838957503657588647800498291802493714988405679599723020417321371169962349242692034572383245468487887215824298155170867536132018146436961795074145956755239572896562852095993678108621826691500245897876306287974529237295795804717228583967845424349411612414874377712039636832392738487878273619867739521838625099111052853931721869123478643272622630313315461243969877828512873451637999000564763895717388244846425222336586404472308047487634553765525425644134607983259833981665377822719347770202875307563888491232244575978018634459537614623807969456072475710239186969358518503328564627491900079161270635373864593128648044896748081105272536272893522682485684567442091136688362217054086792251789904462844107817652879958543644877895852181028702519554903240584252649391591502739038911549179415727644904258996551356234955837407232,
   307980955546810358664769912178261756854906764067471342102837351130771543195614246193732594468008430886251099097565268696247036343948894669120453031489528071656393100978484710468178768767131797415581192549952763523159703858870059589704189702325779985605022519340692221718049301715734719215476835105011300371872469433541243457061159736317854353024279807655823192642480080606014016307806726107706732721589582998907826375611257335432616371239434766243002561733348472720119600038498938228628695143527540264420802832477706341006594066113006208121575615276992395924240424521215448212599196215433742362488451481207153625711730615991268569295078016608762650428133227669808786500151719648752653775457405861320114094465805678286681418934492976504704824683458962035460772798492337729104487648987604454474872663865058306562053412915166137644384275704413418257649915425472996328870009638266398200645159067123382165874566021564487737631357381361150862158103423712079340015410599874265883616434540080586085213077361754717376821475198560386026654290528759185408,
   308538837897850934514750525476227281704996940215957180067882736111026863087945501482818329474703789664412527476567758059629065136296436635573434270000596347810383939597292521658781825856272129630784717024265130244942511385325543136196421406494190610866828244241556365746974557142848711920630151632214703067495693639316933510829619054852530087491229630111698550076324003879389002252637500667540883073330390018065888379755537400191190099812703832551510708126330353581257301046955220657886612226064335459651527441547902123368802394088730209591759263052319429456920851894862163985445572380469643740327963602704437455718728368042838348740415745941490572917626237546920694744283177260854520671777773593895328894018943187800701204748713975745516091691302574981584016253899499864727974893550750637872816502537240835861592728940900506739502695373568427470051103562425249442117437181090838576240625173395010260764652635057865633604421613589024845998590693105942921808761470914674317082027083251080695401505425429975910202763662532408000202400170296475648,
   309133133450820464512682312139491324434161384644675772143213375298261755030211547474534590756205056591231629591076096527999665190576956048873066339445287547863071327419783356644660874913086557741479383990623926124334167233686092550771146207146537511375657018979898237341128987708725932274118399380614982053727301671394168853814465424914798873267158256108515815778843657567349195742842915108862769444397481775796711839556260366817049531188126293299516146910519711355412301151380086229063978739881903001595646763802498418053722890938295505166881451468819192135261718088803308729216928850867464982185093839444749677926470255281011723598591424042355020677208797478114073581248936342051319035138091092200646252647472183311250789770935043901163984031572258670623081015344459735866492311701458501999768242798972529714725297974142216132401654084068223763198616362727856632495281894888459243424247918270220965735643826528656548486947094901382401088150422968593540382654565015467550935002307139651294059251610182295704679676064597107903447771295961317376,
   309763555870487993073610576166109872004968366517735227559809135164630614997933435204251328877728325244214629275261171842339278265092984975287036495812330923885346200126030887532188992233332454362873479760797638774594953908805174465620900835924283073755869479867043579721055486306796353393254651151721396104063753947008029642360020944711519350776494021872383463138339104902011797612828814792911743846170356442758449770325888870741058344721050327613203489796792317502151832040280331329324680503398602242675434524602113794280263179333006223120248734682584200495273002210086729168959898367069865673086379942492950397906345508414310931189312785145671639912371010911585150403561421454277223391983535230203455189970661679961639855913097378930648733043504270821912762633592279675245058916049457241195332872731906956435508717650101367682566514996019687738180131564174341898606931091093167284544565679166805482984265931538911418631597997253322987243658309729699456535555461699348440537973981952664632827034217232301860293283909631188490146567304058503168,
   310429800934198196806811270250481778002897263614856203175138200210908232791711391706425756749944824921860982234343071890664671042161474761717068608395894716533486574198273454283231579689119248063190345549603685230294259884272422654578272755812665368219979893596503920955743676092476546324400894257645645062229587256459968799195290380729752820018190384228557027980797905781754587785429778907700056914872303340830210177583460984204600423048149144505445752716204808972399868966555191499264267152957782313341154607911864956755185144173446421525147600517790834786728417312018498953855761613112137753761102396316397628209620509859639517699701359976973584457826261871761656936674323261606643940835398713963658636416101884429409817131723118149265102674931814377067071981375270088015834349818842049978206142172561895691620075303426682092908351660988638834961173153183071004535005729376641826971525320319958661915980060197146879931712363608446370810135022252530165885780105466236705543201778315939084667909984862727617621407995907754472618690351604957184,
   311131546627380134000642548383749677917546134623184954908966872571393994959798085605605756174921912070950190559848793801994493122659005307599015267854362553595538272732905297971414728800300263902035166633459432556151828324822121920586135546406998312102771669435159296681638030117135980041409187985211398839882193972579366955093963456525483666800671680259518317317497661301510923457060188005848528981908513312111166264401758058116254361398234122900945138150661287818879684539156223669489886479299229949716041396095996644221707724483484569040939233041144091090002992846153922769499358190935646180577203789635008674375562455932826289218019621409908770921435641615722245142713911284768366675319168353536252829637708639988746635052515718021269786488969362573112145800965765515761955633624513568918972696782445320072620028742326294858540740913692429307197060174567253504332863934471245080472541660310029304403701320792671915521593874208510468221294977367699501590191159014466404011113909690847022280550582527381849276366883064851101334687628369330176,
   311868453348208850661512378568944807602335803439127216609379168742933396024937146925416379092713305200786741568170921712609128541936782645606846539846339774230111150849697406803353556590835023188024759341309063171417085528203349949669914768499772269123540508348000881407720266931427128356157195579584611930620351869773234853062831281730323563217557852700639404709531266969611145562045647867157557187963602057561264239108659378736221932188458978778719738155148096763203399771492997813088068792635623494127941013579562019663725471361407168594307690488194027595083986484026804284054060562505159849036990367200718351424890001342316311423963148661234412294064233101225646050217527972995953453621617384559011379347856608392153897520090905362649553248962823331342344263329963750957076347595962506566158578248887711407114490377290579218330658234105454337049983635862813412467448173465635917759387631554345694766979797466521090613233571851746651648393426991106727082500041021552556507325571716678000092287990582177023671543810294466348289290273128710144,
   312640164057690558275788125478759870144970732763290536643919058214710326289639114907739404200371076604672164247757695936429775559418397060979337808260104928374214958492735220553727732421558730656615492304127745917746365054170388334152940055031488677766688172156706712084183522683773388794663296761089629010515358837846779977884594758095591106094589913560315066951590057228482655690742775817843027195419541357544088681257524166329487474456228777871860555547712267193705120828939454953581067961252013602240264889523763526342913154008158028935335945147249821373639254046979787529103823161723420191560798159689810769843090182248074466117656513624242201855222453960795677940342681559224984431899432524785869656309783506319260847495314143050239640624913840494173642835764581542193895982106558138818935397729298430448014169222350880001421958373273802756287598883655125791881873336279617126454412177532394859835215646373419368467081454711366942494497210196246146259091426473568754189411748184864870304528934464800119942779431577657962388284720558374912,
   313446304497968346918028670685036842224453574725833117571647563691220593660196015314048363233923145000154871653980978770013715333944113974792189946432696193907313183805662556071403049888764988550346230768657073544642358736331052124440914222893039068944262094908860794529927040562383990824198710755535196844163559959163894710911437016396838557055941344759073416267530505573016995661772685914651405190989222166831722211486815905513292683989323011677399410604376018506260599012647365149551663859346406500941483550371252693488804815716667923787612091219910123970439007736582668507658730619325604376649965640561586895344177036543808676608891344550367540481982400313724116075352027318730967216314898893234233323526423561792339235028453151479785784370160068713028455956570300036613164730918040241663450563104990654053967853179016376152757021726523062820672003029988639226490814348149343633654306084159233199552700586981949015797063877030748154222459282123071721797586736500076549356317254704960422572826345790048235915772559249679991574542939221655552,
   314286483287830934735835965259167889392293415884692717104316232758886717284685719084757987889486390865106629278161292021185764390634137537462644452999661471123152610036944172357611308071435178212911403777830555689378079067550970086918806016416889091898474712480642909983341959093106443538214591306005169135860925174730678505251079124277339096549036178453150326032827444273822533221203655329823671522299967691298700196116152789611373776098181699226335132551614041729687327352076427284620533087419268247011587799909661028821715279047971076630290020059585419043616919570863562298333115499562913233304954962937617011305227091464468167301636428700620056346697978495725866376193630801050098438905544231695341742050881839317469177211130984597013638661198601402125120841206916400880891232066208118759141432820074828315207425938934667535235340105657178803255683238322336136956294106215946624227824248630987815636817202472702017914509688268722641508727258765902144488910000732224614748923135511399663008851011076097255739749291474650317180894124301090816,
   315160292222883023473674195087641099813403306984500738375559420924061234953647448800070579258484793402869677607991139105789965737615552053697240164443749117555662429878909542532685043503197026247055433619856272171727108318437986628466633102860615173012785329825554587793241189996606510465294568280675075884854439520416409481973493382732537642472571634030652061169612078059644900898771774290070620701309428863587263937917711140845255555338933742622062742219015175206489161599387347949165090719168065893513561714919153807965906216659840049649667066699729326662234168808193446734367633933380878592860637341545811500122354355090247424005952508302883969293455726297065959657673447996977930472894727359404520856823868807996691660805947332953287060792085736631048459537358444686318523140513486614394310235035718576340080811415462898680705406760912771751569385077203175580625058114400491473519872735543659790486259778607591633942821912486423660455717999681768114231774409605618422024194583324766795915287327979280245803985526724128939123230975906021376,
   316067306357409940888456825958098411649988623741474276740938850921741215693703945764163191841290931606336976535170506949522830598725457376698060837931022428449073864474994861646151521732273867778958874402260846852237210524596260896190921066522438191233297351695977298293406971477359425250338402532335977171305032106502254787946969120031708026928073936364063958054547430592305680146317095894942871681386474510793229580197206230291357927544493984333521854476201534927049531735184112874398256374476659673034507407678404997694947541673080655300905600782572413032589759008646067990085912163611034124846479649639107081125566140841517143845848254555554308994727228113555615733421430961223943332899230020264200089949885283633261612114154758020433998913080968002988847909598183349345990096272386266131666889379513696259622297685783425884684340352386274106436378646653068085413011435950559768031378453334970334367738982582282938440136558431184507838502999121983388413246807100876823684864718878876098821880130041067389644963950047006233929722899818610688,
   317007084359124424550423798932253298391699243318291194253195678901880833713970753898731788293376473393363312985605704045955173044867834357877299051021664654523599697422954495659490484356037545552077922862464296036871076537613264957833059309015387725584282291624648681990319075447323636667355492702856772325538375721371840375578903894010511084486698629348481676603894495722201238981642859732674204458661850474483926166495042561769551891833501304717768370911639822191346913142693101810721492727466520203821354104128422686726007283885035343281570323482365068192072113515156999688573861454094582519386687674298802754838848557617405064513737088823859755269558377883411302813523636239845128255388002892668470673598731055773812553228694455447011964790120776048510613783046982794420373230857098404328840223931376288780224065388546051239906999546226380820827073444732490099418844660156252149588732244092764581728481980623378101269499449408257287772402959260459443693744830875485650600949519249805690163966104858962530321721910119991954188480665345851392,
   317979168563743050120199560403262720444893608929872997223401686441648905896500936403851807938722678734149227270363509268243617954107489492376581442990795937258706568598308405457043613040111259621097295246495176795196301991226412635961704625853706728863004179751792849801167021164190768906841479136887083318100959462677416040707422949199232465570389337717539921743636966538906120262479701275879846136533291897048978873651766449530264229492255271770432502948061645001784850566245355232870844908467827563420096671700629806693342899823486846160639820475408761669076341231296363175309167913795387909326544487691940270033817269195379498978909700742218496318253316708468376352540812949221648758529165378564867471957260132523879232760959122327242821662851353028624915607554239892680954656598226024137494841493047569382737951275227797601707413082329430298456062161258772243246088873900545212962682809884589225929942981324392128637270311113062783980431727127054931384712307343498102366335165449107937140469118415041013831900636916176728877326919985528832,
   318983085370665336357463780011673774154724323408052341690414873398729269614181837314226145036929861102913654646965651983567801398828131101005156012068396853165656138489713492553861663432846540609170996489739102081313297884156121413881301756748349777761482954373793735109074371449344916169285700935645979868101246503080705740845244847175843310141911829549900247311005757809641830849656537933245687257127015753527146623929527703680165351756267536391512367834201999369381403145822682897391525721988854255342793206824800388910846887953110792856265596792067614643134593410984315378691830673232451773741559158334574973785497244242948974318698657397552886620311675552143393020252380315571997733518207423517910237003433286926035790788708724337369147282256710873706255916496743182484220676478072727344402159674530042684282747207592581994292296223245590648493216521645810703201027421397873934203026545671274561594340055797483251221453233860089822604048928178417856561334258315179790702163771961188029565931024519019886602158549288697187231592468210253824,
   320018345297550173398009380702795643394405577339435158608849010232131274196339107618055155436803545678079959878690965855620907127481540096342957872809325477591411654025111291166018245503525251739938581072659362083208252177865697941233122411619602183687993795293088603051438825711884368763545141284361893851237714838501699798777388962485886794620579736402108248355904343684003438594178168675128171357461019001007946822888812825107528295254538582142682593800802596815460833948051170671375729885109282893261902794019178469244666400186348545248974172635826515402622160821906121523357256799398245578101468197502047204345318241297856929307460740681008349195258252653819057685757584058280721626788682298542440603087579364214987894161304064923467124312227267518287196481200142749397221540464939335821853451825642852511375086244000461414719749315903693110626540458537723273441800674650631485202782956081600327475719940132473295443540344303097606886333330057718789070109473429478623550325995462739894072927740820991455005066040356711388026729859326672896,
   321084443389639034831677764156989236484611899779246518226021422596284531940198000501497830536662993802545052152523888653366304584249265921112927805504629901786541327804971907709495552034449478040872506293177909046445518634999820015504765793682235699255772208198725396897406216066564348945906191850133629362285819792888488582797180218838317033817396944461863493581752990683808405770180155834871625107749273155012973258963730699324471849835833153598735164711051400420810732869703822528857393776198307615346254843510324566211377884308331203801615850600972584192818845110512772330618381033681068301275374890391934466888526531286163084150906380660581129845958070898547678561332481978830697835924447930575983537888073802596884048306841296937846119102739785380061087699987807467898405783161267978685509283461387380723782029540842453330124461844129010590227032947229761687154258185600436204144360705025746611413035691619604223643741420674676215858946237948677854433491016795166292152516385100449381779237176792423756293763044054775581657718276040425472,
   322180859342552941325739378418754077269308681309421151705928814118978914175100109071270756894415563824904966728879092546425966416295686275362749972177749098563725315556079487770211742879199186562081402998608857917754541184114072513740390818490932073983587449544742109026521063497714426252894007331235765446458337592722618981664765335883198008636438572917611119671702593458589878768340084982333123194532751455360601892123919365112292623077506400630239069574824877926150837454219147419720484964890353710057840926096802029335606269917056020408027125832087466760354614314229000615863501550191121467712067576232545033411334052831445821416729629933305954808770722313494554272438644973444851707735518945927345207054862731827125973162062670184536294200220531868232887921429155510595516005323975667938267239123626919851184782911368397104550922264889741663352143509192913603269984191971399477260330299434082567896744066001067887574431156696117929512831410600971196997795845357558390699997204316747430993427140956910346030683868852514258136322421358067712,
   323307057843395137356506405755303002548585811712973370494097764353198025694893605838791897882658592662673145234452875611696485471863438504979731691184291273073146177022234676973383277572144445747336833774666094766292024078195152995652524608484868687084731576246698869397856870114204837895589930878943193200716531703934827678471054841756353612390187326753175074223072620830008888013509377379056372317853574163385430885865411671366495507199710462421525560066519166214142541156159480700265887937547920915131301850230125582299581125888711446339490287217451445183171639995024968590826223229286283310430061780199373344687593939732257311541829524590257083659896556663790824266205798433267906634921562199683407051680054456548821800082090302552147891463044096173508383104334771700946101713107944109990111253521470946219271946153602586863042700925064314569019153710935666270829646444310908969429800335009540037854630651647096329219209332755486481529481596050403824334150970384667327342516500116025960696527086594588087476078125273733403942206782308352000,
   324462488789056804317564882886049968435674921425009304091096517246935089277837257246450099694547452607290337977726966721875227496896808028991320283785840795822209030832993124336672980638668717878575071401849065214954811097686588681187679149123335721787977498661638150051230457345687429098649878597550913343797931186510495043253611222502325548405855809104745324383151630771167527104349415696329746238260943389672722218720688723677340691272494830055856822616772596950290835293814462241450711274335142064479535696969475630875564326411195424551581995818500377489808823845218015305745970643491010411130054295957324854928437402470328150965628029279892277304347997527585895927380072516868850309642374586511960367625526979767333235046960698496845684893341017565376027792982960612977305239426976212734272566629746788802329551516076902886057389327590634138049696820303218494041102474218511736584005682449273583368054435872883853153791988970441772362907202316676469189704482189709646728743611031432420100158486193772970927312751326312180047226134796959744]

theorem effPacks_eq : effPacks = pack 34 effRows := by decide +kernel

/-- The sums of the rows packed. -/
def effSums : Nat :=
  10017958588744847021244080297930172578751601604256114640760451354180047040827389122166318164082805683497413171526492269913251569034915719221739724197342083104970590203060650259815702839998421989288509397202000411525179792617254980536693178767791113853222930398028104342456251113318006441745121610037728464111243449433967458947553756215304582016082094586515818279961436696785336367095698287302227594882674606590005731278377593980726310177425526990728069014981349839575809394943478409070631683276549545733758610121153006886237000172982867934707944228104111994190881422702875824417868699102888239682838754697875340352850320525451180042528018897786493131458385509452976810050511162509697234977845912443042518028927258708589464566214995271215285099795629160563161651648123761694844211418008410112812766136561225787446688586215165894221205422160182826385098272611786728537136584484131630360899697021909532546782456777910920279496814725012510690637524379073784060676232778804767469240275707729641658562986994474928689254994876351504899650297742239529033

theorem effSums_eq : effSums = packVals List.sum effRows := by decide +kernel

theorem effList_le : ∀ c ∈ effList, c ≤ unitN := by
  have h : effList.all (fun c => Nat.ble c unitN) = true := by decide +kernel
  intro c hc
  exact Nat.le_of_ble_eq_true (List.all_eq_true.1 h c hc)

/-- The check of one detector at one frequency. -/
noncomputable def colCheck (P : Ball) (c : Col) : Bool :=
  forceB (turn P (conj (binBall c.k))) (fun z =>
    sizeAt z effPacks effSums 34 fun s => Nat.ble (Nat.mul (Nat.mul c.lo milli) (Nat.mul c.lo milli)) s && Nat.ble s (Nat.mul (Nat.mul c.up milli) (Nat.mul c.up milli))) &&
  forceB (turn P (binBall c.k)) (fun z =>
    sizeAt z effPacks effSums 34 fun s => Nat.ble s (Nat.mul (Nat.mul c.mir milli) (Nat.mul c.mir milli)))

/-- The check of the next `n` frequencies. -/
noncomputable def rowRun (cols : List Col) (n : Nat) : Ball → Bool :=
  Nat.rec (motive := fun _ => Ball → Bool) (fun _ => true) (fun _ ih P => cols.all (colCheck P) && forceB (turn P rootF) ih) n

/-- The check of one tone. -/
noncomputable def rowCheck (r : Row) : Bool := forceB (fpow rootF 13 (4 * r.f - r.j)) (rowRun r.cols (2 * r.j + 1))

end Verif.Dtmf.Live
