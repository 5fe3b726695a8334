import Verif.Ax25.EarCheck

/-!
# The tables of C139

The sums of `EarCheck` as literals, and the checks, all done by the kernel.
-/

namespace Verif.Ax25.Ear

open Complex Ball

set_option maxRecDepth 100000

/-- `tab` of -4. -/
def lowSub1 : List Ball := [
  ⟨36897283186403, -2368884174649, 12807⟩, ⟨35905493172602, -2241007013095, 12106⟩, ⟨34913253966024, -2116663308574, 11425⟩,
  ⟨33920578155300, -1995854638647, 10764⟩, ⟨32927478334600, -1878582536024, 10123⟩, ⟨31933967103473, -1764848488547, 9502⟩,
  ⟨30940057066689, -1654653939171, 8901⟩, ⟨29945760834076, -1548000285944, 8320⟩, ⟨28951091020363, -1444888881991, 7759⟩,
  ⟨27956060245018, -1345321035496, 7218⟩, ⟨26960681132089, -1249298009686, 6697⟩, ⟨25964966310043, -1156821022814, 6196⟩,
  ⟨24968928411606, -1067891248144, 5715⟩, ⟨23972580073603, -982509813936, 5254⟩, ⟨22975933936798, -900677803432, 4813⟩,
  ⟨21979002645733, -822396254843, 4392⟩, ⟨20981798848568, -747666161334, 3991⟩, ⟨19984335196920, -676488471012, 3610⟩,
  ⟨18986624345703, -608864086915, 3249⟩, ⟨17988678952967, -544793867000, 2907⟩, ⟨16990511679738, -484278624132, 2584⟩,
  ⟨15992135189857, -427319126074, 2280⟩, ⟨14993562149819, -373916095476, 1995⟩, ⟨13994805228613, -324070209867, 1729⟩,
  ⟨12995877097560, -277782101647, 1482⟩, ⟨11996790430154, -235052358077, 1254⟩, ⟨10997557901900, -195881521273, 1045⟩,
  ⟨9998192190154, -160270088199, 855⟩, ⟨8998705973962, -128218510661, 684⟩, ⟨7999111933898, -99727195300, 532⟩,
  ⟨6999422751904, -74796503588, 399⟩, ⟨5999651111130, -53426751823, 285⟩, ⟨4999809695771, -35618211125, 190⟩,
  ⟨3999911190908, -21371107433, 114⟩, ⟨2999968282346, -10685621501, 57⟩, ⟨1999993656453, -3561888897, 19⟩,
  ⟨1000000000000, 0, 0⟩, ⟨0, 0, 0⟩]

theorem lowSub1_eq : tab (-4) = lowSub1 := by decide +kernel

/-- `tab` of 388. -/
def lowAdd1 : List Ball := [
  ⟨629466358916, -40413062908, 1309529⟩, ⟨-362323645794, 87464110195, 1238310⟩, ⟨-1252195442510, 543674774993, 1169183⟩,
  ⟨-1934974901395, 1274299299774, 1102252⟩, ⟨-2329964178365, 2192985022525, 1037362⟩, ⟨-2390479409807, 3191152289716, 974118⟩,
  ⟨-2109368287990, 4150827507766, 912802⟩, ⟨-1519855393796, 4958586466211, 853657⟩, ⟨-691615376722, 5518959968356, 796670⟩,
  ⟨277461906190, 5765717355181, 741572⟩, ⟨1272841012581, 5669694320498, 688170⟩, ⟨2176877882142, 5242239846286, 636837⟩,
  ⟨2882724212182, 4533874864205, 587701⟩, ⟨3306955880397, 3628321176358, 540631⟩, ⟨3399432858970, 2632606358378, 495252⟩,
  ⟨3149225274736, 1664414148368, 451766⟩, ⟨2585905213144, 838175381811, 410439⟩, ⟨1776051587442, 251543387701, 371282⟩,
  ⟨815381163309, -26147678405, 334049⟩, ⟨-182564225260, 37922547565, 298467⟩, ⟨-1099837208545, 436181592633, 264929⟩,
  ⟨-1828025104870, 1121559138888, 233587⟩, ⟨-2281063237643, 2013050273976, 204334⟩, ⟨-2405406937107, 3005289478256, 176816⟩,
  ⟨-2186359995834, 3981003797125, 151155⟩, ⟨-1649811616503, 4824873355519, 127639⟩, ⟨-859176561755, 5437161037552, 106303⟩,
  ⟨92099849568, 5745500436664, 86924⟩, ⟨1091586063772, 5713448856035, 69148⟩, ⟨2021152600645, 5344794478397, 53389⟩,
  ⟨2770933800900, 4683108639958, 39823⟩, ⟨3252312870937, 3806596125274, 28367⟩, ⟨3408395519826, 2818852127770, 18689⟩,
  ⟨3220734307211, 1836618312637, 10829⟩, ⟨2711508950076, 975985095532, 5098⟩, ⟨1940904897474, 338670892591, 1555⟩,
  ⟨1000000000000, 0, 0⟩, ⟨0, 0, 0⟩]

theorem lowAdd1_eq : tab (388) = lowAdd1 := by decide +kernel

/-- `tab` of -200. -/
def lowSub2 : List Ball := [
  ⟨1712024629162, -109915642548, 675871⟩, ⟨720234618182, 17961511865, 639260⟩, ⟨-278522299064, -31884380264, 603490⟩,
  ⟨-1252651426989, -257876493059, 568683⟩, ⟨-2171337145962, -652865787701, 534929⟩, ⟨-3005517734214, -1204357165258, 502286⟩,
  ⟨-3728804706905, -1894904736886, 470777⟩, ⟨-4318317589964, -2702663707410, 440388⟩, ⟨-4755407721448, -3602081413998, 411071⟩,
  ⟨-5026248183673, -4564705659587, 382743⟩, ⟨-5122271204197, -5560084770234, 355291⟩, ⟨-5040439188900, -6556730903957, 328704⟩,
  ⟨-4783340813295, -7523116137735, 303098⟩, ⟨-4359109132320, -8428669822432, 278558⟩, ⟨-3781164299120, -9244745655304, 255136⟩,
  ⟨-3067789031666, -9945527877691, 232848⟩, ⟨-2241550256903, -10508847931227, 211674⟩, ⟨-1328585228148, -10916885738442, 191559⟩,
  ⟨-357774698716, -11156733423438, 172415⟩, ⟨640170692388, -11220803639886, 154123⟩, ⟨1633681921415, -11107069589286, 136719⟩,
  ⟨2591330234978, -10819129136752, 120314⟩, ⟨3482821367843, -10366090996078, 104987⟩, ⟨4279953872301, -9762286584512, 90783⟩,
  ⟨4957511243308, -9026816662427, 77712⟩, ⟨5494059617893, -8182947099500, 65748⟩, ⟨5872625814394, -7257372881742, 54830⟩,
  ⟨6081234262414, -6279373641797, 44864⟩, ⟨6113285838249, -5279887426478, 35726⟩, ⟨5967766621694, -4290532001999, 27498⟩,
  ⟨5649279970416, -3342604656947, 20286⟩, ⟨5167900897250, -2466092143251, 14163⟩, ⟨4538857357049, -1688722074694, 9168⟩,
  ⟨3782048525269, -1035085791043, 5304⟩, ⟨2921415307068, -525860435131, 2538⟩, ⟨1984182990253, -177154851721, 803⟩,
  ⟨1000000000000, 0, 0⟩, ⟨0, 0, 0⟩]

theorem lowSub2_eq : tab (-200) = lowSub2 := by decide +kernel

/-- `tab` of 584. -/
def lowAdd2 : List Ball := [
  ⟨755561667733, -48508651942, 1945644⟩, ⟨-236228331865, 79368525571, 1839532⟩, ⟨-1033360819440, 683172942378, 1736695⟩,
  ⟨-1425075327861, 1603259743211, 1636925⟩, ⟨-1307803210473, 2596359551049, 1539751⟩, ⟨-712551014293, 3399898474473, 1445847⟩,
  ⟨203297597925, 3801422195669, 1355023⟩, ⟨1197593818987, 3694768528896, 1266773⟩, ⟨2007447427866, 3108136520981, 1181788⟩,
  ⟨2418734514711, 2196630671636, 1099896⟩, ⟨2322711476596, 1201251568973, 1020556⟩, ⟨1744766640305, 385175746059, 944475⟩,
  ⟨837707632221, -35827744505, 871499⟩, ⟨-158640696776, 49553700738, 801052⟩, ⟨-980845551837, 618745373968, 733858⟩,
  ⟨-1411517374742, 1521253970153, 669781⟩, ⟨-1336787271494, 2518457759542, 608211⟩, ⟨-776413753300, 3346697765024, 549887⟩,
  ⟨121441379925, 3786988744929, 494691⟩, ⟨1119386766084, 3722918516596, 441978⟩, ⟨1953567351151, 3171427138529, 392504⟩,
  ⟨2403427214373, 2278327987976, 346170⟩, ⟨2350024176700, 1279754953343, 302296⟩, ⟨1807477909661, 439729037836, 261654⟩,
  ⟨919236718439, -19648342419, 224163⟩, ⟨-79849944705, 23081406858, 189108⟩, ⟨-925625274069, 556620613343, 157278⟩,
  ⟨-1394467718336, 1439902423267, 128609⟩, ⟨-1362416136485, 2439388636309, 102352⟩, ⟨-837944911628, 3290816806461, 79312⟩,
  ⟨40276661307, 3769070780969, 59443⟩, ⟨1040048300011, 3747701026308, 41962⟩, ⟨1897032092422, 3232357668743, 27689⟩,
  ⟨2384642988762, 2359296610693, 16597⟩, ⟨2373957501371, 1359353703151, 7868⟩, ⟨1867800854513, 496912141364, 2339⟩,
  ⟨1000000000000, 0, 0⟩, ⟨0, 0, 0⟩]

theorem lowAdd2_eq : tab (584) = lowAdd2 := by decide +kernel

/-- `tab` of 156. -/
def highSub1 : List Ball := [
  ⟨-6247797694422, 4662852657186, 527448⟩, ⟨-6532325275149, 5621520509009, 499017⟩, ⟨-6681367535805, 6610351333270, 471299⟩,
  ⟨-6692053016703, 7610294239203, 444214⟩, ⟨-6564175850523, 8602084249817, 417830⟩, ⟨-6300199728570, 9566613462428, 392215⟩,
  ⟨-5905210435106, 10485299182981, 367422⟩, ⟨-5386817864241, 11340441941664, 343489⟩, ⟨-4755009407127, 12115566492257, 320436⟩,
  ⟨-4021957534112, 12795739225494, 298267⟩, ⟨-3201785278989, 13367855881128, 276969⟩, ⟨-2310294143541, 13820894015618, 256512⟩,
  ⟨-1364659664592, 14146125361375, 236851⟩, ⟨-383100508791, 14337283986239, 217924⟩, ⟨615472529621, 14390687013408, 199656⟩,
  ⟨1611820865627, 14305305576029, 182065⟩, ⟨2586748775495, 14082784639424, 165224⟩, ⟨3521473223069, 13727411309064, 149191⟩,
  ⟨4397985735189, 13246032234864, 134008⟩, ⟨5199399354322, 12647921703100, 119701⟩, ⟨5910273983984, 11944602957296, 106279⟩,
  ⟨6516913858829, 11149626190527, 93734⟩, ⟨7007631408318, 10278307486357, 82041⟩, ⟨7372972430353, 9347433737995, 71159⟩,
  ⟨7605898236663, 8374939230718, 61032⟩, ⟨7701921260714, 7379560118550, 51589⟩, ⟨7659191515512, 6380473452078, 42799⟩,
  ⟨7478532235595, 5396927711918, 34738⟩, ⟨7163424016534, 4447871966007, 27468⟩, ⟨6719937757510, 3551590795401, 21037⟩,
  ⟨6156617698904, 2725352022129, 15476⟩, ⟨5484316808306, 1985074026004, 10799⟩, ⟨4715987686404, 1345019059893, 7003⟩,
  ⟨3866433021185, 817518472055, 4069⟩, ⟨2952020398207, 412735129435, 1961⟩, ⟨1990366961437, 138467619088, 627⟩,
  ⟨1000000000000, 0, 0⟩, ⟨0, 0, 0⟩]

theorem highSub1_eq : tab (156) = highSub1 := by decide +kernel

/-- `tab` of 548. -/
def highAdd1 : List Ball := [
  ⟨-1283160971373, 957647966986, 1848699⟩, ⟨-1567688538842, 1916315813961, 1748532⟩, ⟨-1369542381951, 2896488287870, 1650950⟩,
  ⟨-734977021661, 3669357476184, 1556456⟩, ⟨187876902720, 4054507594456, 1464832⟩, ⟨1183591713448, 3962030593684, 1375596⟩,
  ⟨2019731351207, 3413513969717, 1289398⟩, ⟨2501110407000, 2537001456475, 1206179⟩, ⟨2515357497170, 1537102960490, 1125186⟩,
  ⟨2059146832292, 647231165381, 1047146⟩, ⟨1238974577480, 75114520332, 972160⟩, ⟨246298773355, -45694136801, 899617⟩,
  ⟨-687153935525, 313006329669, 829909⟩, ⟨-1343481729330, 1067482182210, 763296⟩, ⟨-1569473824640, 2041611310443, 699316⟩,
  ⟨-1312375444904, 3007996538691, 638020⟩, ⟨-632202704485, 3741048399103, 579824⟩, ⟨312267335654, 4069645920040, 524421⟩,
  ⟨1300561009976, 3917082486002, 471521⟩, ⟨2101974622353, 3318971952211, 421691⟩, ⟨2529429081373, 2414935075295, 374782⟩,
  ⟨2483140965946, 1416006949574, 330167⟩, ⟨1973915605805, 555373738966, 288557⟩, ⟨1120624724535, 33938543395, 249963⟩,
  ⟨122457454988, -26576693288, 213692⟩, ⟨-787577650460, 387954486896, 180327⟩, ⟨-1397045292497, 1180765426798, 150038⟩,
  ⟨-1563673551810, 2166785212067, 122278⟩, ⟨-1248565330725, 3115840955094, 97292⟩, ⟨-525278350883, 3806388520280, 75408⟩,
  ⟨437345894834, 4077228984715, 56230⟩, ⟨1414595888870, 3865138330988, 39662⟩, ⟨2178345931810, 3219626232901, 26186⟩,
  ⟨2550308979473, 2291378696591, 15563⟩, ⟨2443655324859, 1297082465040, 7356⟩, ⟨1883281810547, 468842449583, 2195⟩,
  ⟨1000000000000, 0, 0⟩, ⟨0, 0, 0⟩]

theorem highAdd1_eq : tab (548) = highAdd1 := by decide +kernel

/-- `tab` of -40. -/
def highSub2 : List Ball := [
  ⟨27553952928952, -20564049483343, 135588⟩, ⟨27269425341169, -19605381631346, 127996⟩, ⟨26950938689834, -18657454286229, 120609⟩,
  ⟨26598896999623, -17721469966334, 113431⟩, ⟨26213746862346, -16798616039362, 106465⟩, ⟨25795976870410, -15890063216106, 99714⟩,
  ⟨25346116997002, -14996964065316, 93180⟩, ⟨24864737923779, -14120451551575, 86866⟩, ⟨24352450316913, -13261637598050, 80774⟩,
  ⟨23809904052416, -12421611675929, 74906⟩, ⟨23237787391721, -11601439422346, 69263⟩, ⟨22636826108570, -10802161288538, 63847⟩,
  ⟨22007782568316, -10024791219953, 58659⟩, ⟨21351454760802, -9270315369983, 53699⟩, ⟨20668675288052, -8539690848952, 48968⟩,
  ⟨19960310308050, -7833844509949, 44466⟩, ⟨19227258435953, -7153671773044, 40193⟩, ⟨18470449604128, -6500035489379, 36148⟩,
  ⟨17690843882464, -5873764846576, 32330⟩, ⟨16889430260448, -5275654316848, 28738⟩, ⟨16067225392556, -4706462649150, 25371⟩,
  ⟨15225272308550, -4166911906650, 22228⟩, ⟨14364639090315, -3657686550734, 19307⟩, ⟨13486417516915, -3179432572717, 16606⟩,
  ⟨12591721679588, -2732756674351, 14122⟩, ⟨11681686568435, -2318225498179, 11852⟩, ⟨10757466632600, -1936364908706, 9793⟩,
  ⟨9820234315762, -1587659325298, 7942⟩, ⟨8871178568801, -1272551107660, 6296⟩, ⟨7911503341522, -991439994669, 4851⟩,
  ⟨6942426055353, -744682597275, 3603⟩, ⟨5965176058953, -532591946111, 2548⟩, ⟨4980993068689, -355437094392, 1681⟩,
  ⟨3991125595961, -213442776599, 998⟩, ⟨2996829363370, -106789123386, 494⟩, ⟨1999365711738, -35611433071, 163⟩,
  ⟨1000000000000, 0, 0⟩, ⟨0, 0, 0⟩]

theorem highSub2_eq : tab (-40) = highSub2 := by decide +kernel

/-- `tab` of 744. -/
def highAdd2 : List Ball := [
  ⟨-751435455504, 560810898222, 2509486⟩, ⟨-1035963017481, 1519478742101, 2373299⟩, ⟨-670621979693, 2450352468982, 2240972⟩,
  ⟨190011235762, 2959577800855, 2112724⟩, ⟨1181801232760, 2831700621904, 1987811⟩, ⟨1885119954568, 2120825986351, 1867109⟩,
  ⟨2002392037731, 1127726177013, 1749714⟩, ⟨1483999461257, 272583434348, 1636409⟩, ⟨549275017022, -82789873462, 1526946⟩,
  ⟨-406297772205, 211965312958, 1421206⟩, ⟨-978414412615, 1032137566863, 1319612⟩, ⟨-925011367406, 2030710594713, 1221151⟩,
  ⟨-268683556485, 2785186427775, 1126891⟩, ⟨712875592849, 2976345040705, 1036124⟩, ⟨1604366713311, 2523306894461, 949361⟩,
  ⟨2028598375478, 1617753208859, 866558⟩, ⟨1806077431613, 642825308391, 787321⟩, ⟨1030952875961, 11016867744, 712274⟩,
  ⟨31181243278, -10352872769, 640268⟩, ⟨-770232365973, 587757661425, 572429⟩, ⟨-1034208472495, 1552286873149, 508249⟩,
  ⟨-649058330246, 2475140791105, 447964⟩, ⟨222260372442, 2965858332247, 391735⟩, ⟨1211091191374, 2816816058902, 338895⟩,
  ⟨1899058103145, 2091074013201, 290265⟩, ⟨1995081121571, 1095694904821, 244886⟩, ⟨1458532741563, 251825349584, 203618⟩,
  ⟨516427506763, -83491989345, 166154⟩, ⟨-432628234844, 231616232423, 132455⟩, ⟨-987087363515, 1063827183814, 102885⟩,
  ⟨-912357266083, 2061030977628, 76508⟩, ⟨-240056374999, 2801308970400, 54337⟩, ⟨745363644690, 2971448267468, 35607⟩,
  ⟨1626969884788, 2499462638547, 20908⟩, ⟨2031753225776, 1585050016027, 10137⟩, ⟨1788449138114, 615099955885, 2979⟩,
  ⟨1000000000000, 0, 0⟩, ⟨0, 0, 0⟩]

theorem highAdd2_eq : tab (744) = highAdd2 := by decide +kernel

/-- The phases `1, 3, …, 159`. -/
def phases : List Ball := [
  ⟨999999603528, 890473990, 4⟩, ⟨999996431753, 2671419144, 12⟩, ⟨999990088214, 4452355826, 20⟩, ⟨999980572930, 6233278386, 28⟩,
  ⟨999967885932, 8014181175, 36⟩, ⟨999952027260, 9795058544, 44⟩, ⟨999932996965, 11575904847, 52⟩, ⟨999910795106, 13356714433, 60⟩,
  ⟨999885421754, 15137481654, 68⟩, ⟨999856876990, 16918200863, 76⟩, ⟨999825160904, 18698866411, 84⟩, ⟨999790273598, 20479472650, 92⟩,
  ⟨999752215181, 22260013933, 100⟩, ⟨999710985774, 24040484612, 108⟩, ⟨999666585508, 25820879040, 116⟩, ⟨999619014524, 27601191570, 124⟩,
  ⟨999568272972, 29381416556, 132⟩, ⟨999514361014, 31161548350, 140⟩, ⟨999457278821, 32941581307, 148⟩, ⟨999397026573, 34721509780, 156⟩,
  ⟨999333604462, 36501328124, 164⟩, ⟨999267012689, 38281030695, 172⟩, ⟨999197251465, 40060611847, 180⟩, ⟨999124321012, 41840065936, 188⟩,
  ⟨999048221560, 43619387317, 196⟩, ⟨998968953352, 45398570348, 204⟩, ⟨998886516638, 47177609384, 212⟩, ⟨998800911680, 48956498783, 220⟩,
  ⟨998712138750, 50735232904, 228⟩, ⟨998620198129, 52513806103, 236⟩, ⟨998525090109, 54292212741, 244⟩, ⟨998426814991, 56070447176, 252⟩,
  ⟨998325373087, 57848503768, 260⟩, ⟨998220764718, 59626376877, 268⟩, ⟨998112990217, 61404060865, 276⟩, ⟨998002049926, 63181550093, 284⟩,
  ⟨997887944197, 64958838923, 292⟩, ⟨997770673390, 66735921718, 300⟩, ⟨997650237879, 68512792842, 308⟩, ⟨997526638045, 70289446659, 316⟩,
  ⟨997399874280, 72065877533, 324⟩, ⟨997269946987, 73842079831, 332⟩, ⟨997136856577, 75618047918, 340⟩, ⟨997000603473, 77393776161, 348⟩,
  ⟨996861188106, 79169258929, 356⟩, ⟨996718610919, 80944490590, 364⟩, ⟨996572872364, 82719465513, 372⟩, ⟨996423972904, 84494178069, 380⟩,
  ⟨996271913010, 86268622628, 388⟩, ⟨996116693165, 88042793562, 396⟩, ⟨995958313861, 89816685244, 404⟩, ⟨995796775601, 91590292047, 412⟩,
  ⟨995632078897, 93363608347, 420⟩, ⟨995464224271, 95136628518, 428⟩, ⟨995293212257, 96909346937, 436⟩, ⟨995119043396, 98681757982, 444⟩,
  ⟨994941718240, 100453856030, 452⟩, ⟨994761237352, 102225635461, 460⟩, ⟨994577601304, 103997090655, 468⟩, ⟨994390810679, 105768215994, 476⟩,
  ⟨994200866070, 107539005860, 484⟩, ⟨994007768079, 109309454636, 492⟩, ⟨993811517318, 111079556708, 500⟩, ⟨993612114410, 112849306460, 508⟩,
  ⟨993409559987, 114618698279, 516⟩, ⟨993203854692, 116387726553, 524⟩, ⟨992994999177, 118156385671, 532⟩, ⟨992782994105, 119924670024, 540⟩,
  ⟨992567840147, 121692574003, 548⟩, ⟨992349537987, 123460092001, 556⟩, ⟨992128088317, 125227218411, 564⟩, ⟨991903491839, 126993947628, 572⟩,
  ⟨991675749265, 128760274049, 580⟩, ⟨991444861319, 130526192071, 588⟩, ⟨991210828731, 132291696093, 596⟩, ⟨990973652246, 134056780515, 604⟩,
  ⟨990733332614, 135821439740, 612⟩, ⟨990489870598, 137585668170, 620⟩, ⟨990243266970, 139349460209, 628⟩, ⟨989993522513, 141112810262, 636⟩]

theorem phases_eq : phases = (List.range 80).map fun g : ℕ => pw (2 * (g : ℤ) + 1) := by decide +kernel

/-- Bounds for the difference of the two bins, in hundredths, while the tone goes from 1200 Hz to 2200 Hz and `m` samples of the lower are left. -/
def loUp (m : ℕ) : Int := if 36 ≤ m then 31600 else if 17 ≤ m then -3480 else -31000

@[inherit_doc loUp]
def hiUp (m : ℕ) : Int := if m = 0 then -22100 else if m ≤ 8 then -8290 else if m = 9 then -5850 else if m ≤ 12 then 2060 else 35600

/-- The same while the tone goes from 2200 Hz to 1200 Hz. -/
def loDown (m : ℕ) : Int := if m = 0 then 31600 else if m ≤ 9 then 21900 else if m ≤ 19 then -3480 else -31000

@[inherit_doc loDown]
def hiDown (m : ℕ) : Int := if 36 ≤ m then -22100 else if 24 ≤ m then 2060 else if m = 23 then 4880 else 35600

theorem rows_up : ∀ m < 37, rowOk lowSub1 lowAdd1 lowSub2 lowAdd2 highSub1 highAdd1 highSub2 highAdd2 m phases (loUp m) (hiUp m) = true := by
  decide +kernel

theorem rows_down :
    ∀ m < 37, rowOk highSub1 highAdd1 highSub2 highAdd2 lowSub1 lowAdd1 lowSub2 lowAdd2 m (phases.map conj) (loDown m) (hiDown m) = true := by
  decide +kernel

end Verif.Ax25.Ear
