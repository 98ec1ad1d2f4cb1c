import Verif.Model.Airfoil

/-!
# Model of the choice of an airfoil and of the tabulated profiles (source/geometry_airfoil.h)

The tables are written as whole numbers of a decimal unit, e.g. `.0095` with four digits as `95`.  The numbers of the model are the decimal
fractions; the conversion of decimal literals to `double` is not modelled.
-/

namespace Ryujin
namespace Airfoil

/-- Sample points as whole numbers in units of `10^-digits`. (geometry_airfoil.h:365-636) -/
structure Table where
  digits : ℕ
  xUpper : List ℤ
  yUpper : List ℤ
  xLower : List ℤ
  yLower : List ℤ

/-- The table of `nasa_sc2("0714")`, in units of `10^-4`. (geometry_airfoil.h:369-396) -/
def nasaSc2Table : Table where
  digits := 4
  xUpper := [
    0, 20, 50, 100, 200, 300, 400, 500, 700, 1000, 1200, 1500, 1700, 2000, 2200, 2500, 2700, 3000, 3300, 3500, 3800, 4000, 4300, 4500, 4800,
    5000, 5300, 5500, 5700, 6000, 6200, 6500, 6800, 7000, 7200, 7500, 7700, 8000, 8200, 8500, 8700, 9000, 9200, 9500, 9700, 9800, 9900,
    10000]
  yUpper := [
    0, 95, 158, 219, 293, 343, 381, 411, 462, 518, 548, 585, 606, 632, 646, 664, 673, 685, 692, 696, 698, 697, 695, 692, 684, 678, 666, 656,
    645, 625, 610, 585, 555, 533, 509, 469, 439, 389, 353, 294, 251, 181, 131, 49, -9, -39, -71, -104]
  xLower := [
    0, 20, 50, 100, 200, 300, 400, 500, 700, 1000, 1200, 1500, 1700, 2000, 2200, 2500, 2800, 3000, 3200, 3500, 3700, 4000, 4200, 4500, 4800,
    5000, 5300, 5500, 5800, 6000, 6300, 6500, 6800, 7000, 7300, 7500, 7700, 8000, 8300, 8500, 8700, 8900, 9200, 9400, 9500, 9600, 9700,
    9800, 9900, 10000]
  yLower := [
    0, -93, -160, -221, -295, -344, -381, -412, -462, -517, -547, -585, -606, -633, -647, -666, -680, -687, -692, -696, -696, -692, -688,
    -676, -657, -644, -614, -588, -543, -509, -451, -410, -346, -302, -235, -192, -150, -93, -48, -24, -13, -8, -16, -35, -49, -66, -85,
    -109, -137, -163]

/-- The table of `onera("OAT15a")`, in units of `10^-10`. (geometry_airfoil.h:419-581) -/
def oneraTable : Table where
  digits := 10
  xUpper := [
    0, 295888, 1178650, 2632390, 4642450, 7198210, 10301300, 13960500, 18188400, 23002400, 28424300, 34476400, 41180500, 48559500, 56634900,
    65424100, 74942100, 85197000, 96197000, 107945000, 120442000, 133690000, 147688000, 162438000, 177939000, 194194000, 211207000,
    228982000, 247526000, 266845000, 286950000, 307852000, 329562000, 352094000, 375463000, 399687000, 424782000, 450769000, 477668000,
    505500000, 534291000, 564063000, 594842000, 626655000, 659531000, 693498000, 728588000, 764831000, 802261000, 840914000, 880824000,
    922027000, 964564000, 1008470000, 1053800000, 1100580000, 1148850000, 1198680000, 1250090000, 1303140000, 1357890000, 1413900000,
    1470740000, 1528390000, 1586820000, 1646030000, 1705990000, 1766700000, 1828140000, 1890280000, 1953120000, 2016650000, 2080830000,
    2145670000, 2211150000, 2277240000, 2343940000, 2411230000, 2479100000, 2547530000, 2616500000, 2686000000, 2756010000, 2826530000,
    2897530000, 2969000000, 3040930000, 3113290000, 3186090000, 3259290000, 3332890000, 3406860000, 3481210000, 3555900000, 3630930000,
    3706290000, 3781940000, 3857890000, 3934120000, 4010600000, 4087340000, 4164300000, 4241480000, 4318860000, 4396430000, 4474170000,
    4552070000, 4630100000, 4708270000, 4786540000, 4864910000, 4943370000, 5021890000, 5100460000, 5179070000, 5257690000, 5336320000,
    5414940000, 5493540000, 5572090000, 5650590000, 5729020000, 5807360000, 5885590000, 5963710000, 6041700000, 6119530000, 6197200000,
    6274690000, 6351980000, 6429060000, 6505900000, 6582510000, 6658860000, 6734930000, 6810700000, 6886170000, 6961300000, 7036100000,
    7110540000, 7184600000, 7258270000, 7331540000, 7404380000, 7476790000, 7548750000, 7620250000, 7691270000, 7761810000, 7831850000,
    7901390000, 7970400000, 8038900000, 8106850000, 8174260000, 8241100000, 8307380000, 8373070000, 8438170000, 8502650000, 8566520000,
    8629740000, 8692330000, 8753800000, 8813730000, 8872160000, 8929130000, 8984670000, 9038830000, 9091630000, 9143110000, 9193300000,
    9242240000, 9289960000, 9336480000, 9381830000, 9426060000, 9469170000, 9511200000, 9552170000, 9592120000, 9631070000, 9669040000,
    9706050000, 9742130000, 9777310000, 9811600000, 9845030000, 9877620000, 9909390000, 9940360000, 9970560000, 10000000000]
  yUpper := [
    0, 8993530, 18231000, 27689400, 37350800, 47201100, 57226000, 67410300, 77738000, 88190600, 98746700, 109383000, 120074000, 130793000,
    141511000, 152200000, 162832000, 173387000, 183841000, 194179000, 204389000, 214460000, 224386000, 234164000, 243794000, 253276000,
    262612000, 271805000, 280860000, 289783000, 298578000, 307252000, 315811000, 324262000, 332611000, 340861000, 349022000, 357098000,
    365095000, 373016000, 380867000, 388652000, 396375000, 404039000, 411650000, 419211000, 426722000, 434189000, 441614000, 448995000,
    456336000, 463636000, 470894000, 478110000, 485286000, 492423000, 499518000, 506574000, 513591000, 520569000, 527506000, 534343000,
    541023000, 547550000, 553921000, 560138000, 566200000, 572108000, 577861000, 583462000, 588909000, 594202000, 599341000, 604325000,
    609153000, 613826000, 618341000, 622700000, 626900000, 630941000, 634823000, 638544000, 642103000, 645500000, 648734000, 651806000,
    654713000, 657454000, 660031000, 662442000, 664685000, 666760000, 668664000, 670398000, 671960000, 673349000, 674562000, 675598000,
    676456000, 677134000, 677629000, 677940000, 678065000, 678000000, 677743000, 677293000, 676646000, 675798000, 674748000, 673492000,
    672027000, 670349000, 668456000, 666344000, 664010000, 661450000, 658661000, 655640000, 652385000, 648890000, 645151000, 641169000,
    636938000, 632454000, 627715000, 622718000, 617460000, 611937000, 606145000, 600083000, 593747000, 587136000, 580244000, 573069000,
    565607000, 557853000, 549807000, 541461000, 532814000, 523863000, 514606000, 505046000, 495188000, 485042000, 474620000, 463943000,
    453031000, 441914000, 430618000, 419174000, 407612000, 395961000, 384250000, 372503000, 360742000, 348990000, 337262000, 325572000,
    313935000, 302360000, 290860000, 279442000, 268114000, 256966000, 246079000, 235450000, 225073000, 214947000, 205065000, 195422000,
    186011000, 176826000, 167863000, 159112000, 150567000, 142221000, 134066000, 126095000, 118301000, 110678000, 103219000, 95917700,
    88769500, 81769700, 74913500, 68197700, 61621000, 55180600, 48873900, 42700700, 36661200, 30758800, 24997000]
  xLower := [
    0, 322311, 1363270, 3243650, 6060070, 9866540, 14662600, 20412600, 27057100, 34531200, 42770800, 51723400, 61342800, 71594300, 82451700,
    93897300, 105917000, 118504000, 131652000, 145362000, 159635000, 174476000, 189891000, 205889000, 222479000, 239675000, 257488000,
    275934000, 295028000, 314790000, 335237000, 356390000, 378271000, 400900000, 424303000, 448502000, 473523000, 499390000, 526132000,
    553774000, 582343000, 611868000, 642377000, 673899000, 706465000, 740105000, 774850000, 810733000, 847788000, 886050000, 925553000,
    966336000, 1008440000, 1051900000, 1096750000, 1143050000, 1190840000, 1240160000, 1291060000, 1343580000, 1397790000, 1453280000,
    1509610000, 1566760000, 1624730000, 1683490000, 1743030000, 1803330000, 1864370000, 1926150000, 1988630000, 2051810000, 2115680000,
    2180200000, 2245370000, 2311170000, 2377590000, 2444600000, 2512190000, 2580350000, 2649050000, 2718290000, 2788040000, 2858280000,
    2929010000, 3000200000, 3071840000, 3143910000, 3216390000, 3289270000, 3362530000, 3436150000, 3510110000, 3584410000, 3659020000,
    3733920000, 3809100000, 3884550000, 3960240000, 4036160000, 4112300000, 4188640000, 4265170000, 4341870000, 4418710000, 4495700000,
    4572820000, 4650050000, 4727370000, 4804770000, 4882250000, 4959770000, 5037330000, 5114930000, 5192520000, 5270120000, 5347700000,
    5425250000, 5502760000, 5580200000, 5657590000, 5734880000, 5812080000, 5889180000, 5966150000, 6042980000, 6119670000, 6196200000,
    6272570000, 6348740000, 6424730000, 6500500000, 6576050000, 6651370000, 6726450000, 6801280000, 6875840000, 6950120000, 7024110000,
    7097800000, 7171180000, 7244240000, 7316970000, 7389350000, 7461370000, 7533030000, 7604300000, 7675180000, 7745650000, 7815700000,
    7885310000, 7954470000, 8023160000, 8091360000, 8159050000, 8226230000, 8292860000, 8358930000, 8424410000, 8489300000, 8553570000,
    8617200000, 8680180000, 8742040000, 8802390000, 8861230000, 8918630000, 8974600000, 9029190000, 9082420000, 9134330000, 9184950000,
    9234310000, 9282440000, 9329380000, 9375150000, 9419780000, 9463300000, 9505740000, 9547120000, 9587470000, 9626810000, 9665180000,
    9702590000, 9739070000, 9774640000, 9809320000, 9843140000, 9876120000, 9908270000, 9939630000, 9970190000, 10000000000]
  yLower := [
    0, -8992340, -18210800, -27588900, -37039700, -46468100, -55790900, -64945200, -73895000, -82626500, -91144400, -99461100, -107598000,
    -115578000, -123422000, -131152000, -138788000, -146348000, -153851000, -161313000, -168749000, -176173000, -183597000, -191032000,
    -198489000, -205974000, -213498000, -221064000, -228678000, -236341000, -244053000, -251817000, -259627000, -267482000, -275378000,
    -283309000, -291270000, -299255000, -307258000, -315273000, -323295000, -331322000, -339346000, -347366000, -355380000, -363383000,
    -371378000, -379360000, -387331000, -395288000, -403228000, -411152000, -419054000, -426933000, -434778000, -442587000, -450347000,
    -458050000, -465681000, -473225000, -480666000, -487929000, -494941000, -501695000, -508179000, -514387000, -520310000, -525942000,
    -531277000, -536309000, -541035000, -545450000, -549547000, -553323000, -556773000, -559891000, -562670000, -565107000, -567191000,
    -568918000, -570281000, -571272000, -571886000, -572116000, -571958000, -571405000, -570453000, -569098000, -567339000, -565171000,
    -562594000, -559608000, -556210000, -552405000, -548193000, -543577000, -538564000, -533157000, -527365000, -521197000, -514661000,
    -507767000, -500525000, -492947000, -485041000, -476819000, -468294000, -459474000, -450371000, -440995000, -431356000, -421465000,
    -411333000, -400971000, -390390000, -379601000, -368617000, -357451000, -346114000, -334621000, -322983000, -311217000, -299336000,
    -287354000, -275285000, -263145000, -250950000, -238717000, -226459000, -214194000, -201940000, -189714000, -177534000, -165420000,
    -153390000, -141466000, -129671000, -118026000, -106558000, -95289800, -84249100, -73463400, -62961300, -52771400, -42922000, -33442400,
    -24361900, -15708600, -7508680, 213187, 7434890, 14137300, 20303100, 25917400, 30971100, 35459900, 39381900, 42738100, 45535200,
    47783900, 49499400, 50698900, 51401200, 51629000, 51419700, 50815000, 49854000, 48573800, 47009000, 45191900, 43152000, 40915700,
    38507100, 35947500, 33256100, 30450300, 27545200, 24554600, 21490400, 18363300, 15182700, 11957400, 8694500, 5400200, 2080130, -1260360,
    -4616020, -7983830, -11363000, -14752900, -18144400, -21583200, -24967000]

/-- The table of `bell("NLR-1T")`, in units of `10^-5`. (geometry_airfoil.h:603-628) -/
def bellTable : Table where
  digits := 5
  xUpper := [
    0, 259, 974, 2185, 3796, 5675, 7753, 9845, 12341, 15412, 18767, 22313, 26054, 29979, 34064, 38269, 42528, 46849, 51162, 55383, 59596,
    63728, 67732, 71079, 73905, 76946, 80263, 84055, 87846, 90845, 93589, 96199, 100000]
  yUpper := [
    0, 704, 1524, 2296, 2972, 3588, 4098, 4469, 4741, 4986, 5188, 5345, 5459, 5531, 5565, 5560, 5518, 5438, 5323, 5175, 4992, 4774, 4524,
    4291, 4017, 3644, 3140, 2533, 1901, 1421, 1020, 651, 104]
  xLower := [
    0, 259, 974, 2185, 3796, 5675, 7753, 9845, 12341, 15412, 18767, 22313, 26054, 29979, 34064, 38269, 42528, 46849, 51162, 55383, 59596,
    63728, 67732, 71079, 73905, 76946, 80263, 84055, 87846, 90845, 93589, 96199, 100000]
  yLower := [
    0, -512, -867, -1180, -1465, -1713, -1929, -2112, -2299, -2494, -2671, -2821, -2944, -3040, -3104, -3142, -3150, -3132, -3080, -2992,
    -2867, -2734, -2580, -2432, -2305, -2164, -1996, -1794, -1571, -1364, -1087, -711, -104]

noncomputable section

/-- The number of a table. (geometry_airfoil.h:365-636) -/
def scaled (n : ℕ) (k : ℤ) : ℝ := (k : ℝ) / 10 ^ n

/-- The samples of a table. (geometry_airfoil.h:398, 583, 630) -/
def Table.samples (T : Table) : Samples where
  xUpper := T.xUpper.map (scaled T.digits)
  yUpper := T.yUpper.map (scaled T.digits)
  xLower := T.xLower.map (scaled T.digits)
  yLower := T.yLower.map (scaled T.digits)

/-- `nasa_sc2`. (geometry_airfoil.h:365-405) -/
def nasaSc2 (serial : List Char) : NacaResult := if serial = "0714".toList then .ok nasaSc2Table.samples else .exception

/-- `onera`. (geometry_airfoil.h:416-589) -/
def onera (serial : List Char) : NacaResult := if serial = "OAT15a".toList then .ok oneraTable.samples else .exception

/-- `bell`. (geometry_airfoil.h:600-636) -/
def bell (serial : List Char) : NacaResult := if serial = "NLR-1T".toList then .ok bellTable.samples else .exception

/-- The samples of the airfoil named by the parameter `airfoil type`, with the parameter `psi samples`; `rfind(prefix, 0) == 0` asks for a prefix.
(geometry_airfoil.h:916-927) -/
def airfoilSamples (type : List Char) (n : ℕ) : NacaResult :=
  if "NACA ".toList <+: type then nacaPoints (type.drop 5) n
  else if "NASA SC(2) ".toList <+: type then nasaSc2 (type.drop 11)
  else if "ONERA ".toList <+: type then onera (type.drop 6)
  else if "BELL ".toList <+: type then bell (type.drop 5)
  else .exception

end

end Airfoil
end Ryujin
