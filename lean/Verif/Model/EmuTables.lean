import Verif.Model.Emu
/-
GENERATED (tools/emutables.py) from the tables of the emulator in `pyRSD/_gcl/extern/FrankenEmu/include`; do not edit.
-/
namespace Verif.Emu

/-- `ksim` (`ksim.h:17-599`), in units of 10⁻¹⁹ -/
def ksimN : List ℕ :=
  [8694000000000000, 20774660847880308, 32855321695760605, 44935982543640920, 57016643391521208, 69097304239401514, 81177965087281846, 93258625935162039, 105339286783042410, 117419947630922690,
   129500608478802980, 141581269326683310, 153661930174563610, 165742591022443870, 177823251870324190, 189903912718204540, 201984573566084820, 214065234413965060, 226145895261845380, 238226556109725660,
   250307216957605970, 262387877805486290, 274468538653366530, 286549199501246950, 298629860349127270, 310010000000000040, 322040000000000030, 328810000000000010, 342429999999999960, 355509999999999920,
   368599999999999900, 379499999999999980, 392910000000000000, 403980000000000030, 416400000000000100, 429440000000000100, 441499999999999950, 454289999999999970, 466089999999999910, 478230000000000040,
   489290000000000140, 503119999999999960, 515589999999999940, 523810000000000040, 537820000000000100, 551340000000000090, 562760000000000070, 573529999999999940, 587009999999999890, 598870000000000170,
   611349999999999880, 622590000000000020, 634009999999999850, 648020000000000120, 660110000000000140, 672550000000000090, 682909999999999910, 695860000000000090, 707109999999999960, 719229999999999870,
   730739999999999860, 741230000000000080, 755039999999999740, 766310000000000050, 779119999999999950, 791270000000000170, 802759999999999860, 813840000000000120, 827220000000000180, 840609999999999970,
   853410000000000000, 865379999999999900, 875980000000000090, 890029999999999990, 900900000000000030, 911330000000000060, 923960000000000060, 935800000000000100, 949609999999999900, 960840000000000030,
   972750000000000280, 985260000000000160, 997380000000000210, 1009000000000000000, 1020899999999999900, 1033999999999999900, 1046000000000000000, 1057199999999999900, 1069100000000000200, 1082500000000000000,
   1093900000000000000, 1105400000000000100, 1116899999999999800, 1129599999999999900, 1141999999999999800, 1153300000000000000, 1166399999999999900, 1177800000000000000, 1189999999999999800, 1201199999999999900,
   1213400000000000000, 1227100000000000000, 1238900000000000000, 1250699999999999900, 1263199999999999600, 1275500000000000000, 1287500000000000300, 1299899999999999900, 1311300000000000000, 1323500000000000000,
   1335899999999999900, 1347100000000000000, 1359799999999999900, 1372099999999999700, 1384300000000000000, 1395700000000000000, 1407699999999999800, 1420299999999999900, 1432799999999999900, 1444500000000000000,
   1456300000000000100, 1468899999999999900, 1480499999999999900, 1491699999999999700, 1503800000000000100, 1516400000000000200, 1528200000000000400, 1540199999999999900, 1551900000000000200, 1564299999999999900,
   1576599999999999900, 1588700000000000100, 1600900000000000100, 1612700000000000200, 1625399999999999900, 1637599999999999600, 1649500000000000100, 1662200000000000100, 1673999999999999900, 1685000000000000400,
   1697500000000000100, 1710299999999999600, 1722200000000000400, 1734400000000000100, 1746399999999999900, 1758699999999999700, 1770899999999999700, 1782700000000000400, 1794600000000000100, 1807000000000000300,
   1819099999999999900, 1830100000000000100, 1842199999999999900, 1855000000000000000, 1867000000000000300, 1879199999999999800, 1890899999999999800, 1902800000000000000, 1915200000000000000, 1926899999999999700,
   1938999999999999900, 1951700000000000100, 1963100000000000100, 1975099999999999600, 1987800000000000100, 2000099999999999900, 2012499999999999800, 2023400000000000200, 2036100000000000100, 2048899999999999600,
   2060400000000000000, 2072199999999999600, 2084200000000000200, 2096899999999999900, 2109200000000000000, 2121099999999999900, 2132699999999999600, 2145199999999999600, 2157199999999999700, 2168799999999999900,
   2180700000000000100, 2193400000000000100, 2205999999999999900, 2217499999999999700, 2229500000000000400, 2241400000000000100, 2253499999999999700, 2264900000000000200, 2277100000000000000, 2289899999999999700,
   2301499999999999900, 2313599999999999800, 2325600000000000200, 2337699999999999800, 2349999999999999900, 2361999999999999900, 2374100000000000400, 2386500000000000000, 2399100000000000100, 2410399999999999800,
   2422500000000000200, 2434999999999999900, 2447299999999999800, 2458700000000000100, 2470600000000000000, 2483299999999999700, 2495600000000000300, 2507600000000000400, 2519600000000000200, 2532200000000000000,
   2543699999999999900, 2555499999999999400, 2567999999999999700, 2580100000000000200, 2592400000000000800, 2604099999999999700, 2616100000000000100, 2628400000000000200, 2640600000000000200, 2652200000000000100,
   2664300000000000600, 2676500000000000000, 2688400000000000200, 2700699999999999800, 2712399999999999800, 2724799999999999400, 2736700000000000800, 2748799999999999600, 2761000000000000100, 2773200000000000700,
   2785400000000000100, 2797000000000000000, 2808900000000000300, 2821400000000000600, 2833900000000000300, 2845500000000000800, 2857799999999999800, 2870299999999999500, 2882100000000000200, 2893900000000000400,
   2906300000000000000, 2918899999999999800, 2930499999999999800, 2942500000000000700, 2954200000000000200, 2966500000000000200, 2978899999999999900, 2990399999999999700, 3002699999999999800, 3015100000000000600,
   3026800000000000000, 3038500000000000100, 3050300000000000800, 3062599999999999800, 3075000000000000000, 3086999999999999700, 3099100000000000200, 3111200000000000600, 3123100000000000300, 3135299999999999200,
   3147300000000000100, 3159900000000000500, 3171800000000000200, 3183699999999999900, 3196299999999999700, 3208400000000000100, 3220299999999999800, 3231999999999999900, 3244300000000000000, 3256700000000000200,
   3269199999999999900, 3280799999999999800, 3292499999999999900, 3304800000000000000, 3317100000000000000, 3328900000000000200, 3340699999999999800, 3353599999999999900, 3365300000000000500, 3377100000000000100,
   3389200000000000000, 3401600000000000200, 3413700000000000100, 3425300000000000000, 3437700000000000200, 3449799999999999500, 3461800000000000400, 3473600000000000000, 3485800000000000600, 3498100000000000100,
   3510200000000000000, 3522000000000000100, 3533899999999999800, 3546400000000000100, 3558399999999999300, 3570600000000000400, 3582699999999999800, 3594999999999999900, 3607099999999999800, 3618899999999999900,
   3631200000000000000, 3643199999999999800, 3655500000000000400, 3667300000000000000, 3679500000000000000, 3691900000000000200, 3703600000000000200, 3715699999999999600, 3727699999999999900, 3739899999999999900,
   3751999999999999800, 3763900000000000000, 3775800000000000300, 3788199999999999900, 3800299999999999800, 3812100000000000500, 3824199999999999800, 3836100000000000100, 3848599999999999800, 3860399999999999900,
   3872399999999999700, 3884600000000000300, 3896500000000000000, 3908700000000000000, 3920600000000000200, 3933099999999999900, 3945299999999999900, 3957200000000000200, 3969300000000000100, 3981700000000000200,
   3993499999999999800, 4094839999999999600, 4272360000000000000, 4454600000000000200, 4630560000000000800, 4804610000000000300, 4980689999999999300, 5159230000000001300, 5317439999999999900, 5489640000000000100,
   5671990000000000100, 5838689999999999700, 6018839999999999700, 6202330000000000300, 6379249999999999600, 6545410000000000400, 6714560000000000500, 6892080000000001500, 7066010000000000300, 7240540000000000900,
   7420449999999999500, 7593780000000000000, 7764720000000000500, 7942839999999998800, 8116170000000000300, 8288309999999999800, 8462239999999999800, 8631980000000000200, 8810699999999999100, 8989410000000001000,
   9166330000000000300, 9345639999999999500, 9515980000000000500, 9688719999999998400, 9865640000000000000, 10318700000000001000, 10634900000000000000, 10979200000000000000, 11343700000000001000, 11677299999999999000,
   12038300000000000000, 12404700000000000000, 12757900000000000000, 13091400000000000000, 13429700000000000000, 13784200000000000000, 14132000000000000000, 14481100000000000000, 14840899999999999000, 15188200000000001000,
   15528800000000000000, 15886300000000000000, 16232300000000000000, 16577200000000003000, 16924500000000000000, 17263999999999999000, 17622000000000000000, 17978799999999999000, 18332699999999997000, 18690700000000000000,
   19032000000000000000, 19377400000000000000, 19731900000000000000, 20074399999999999000, 20421600000000000000, 20779000000000001000, 21123900000000000000, 21462200000000000000, 21816000000000000000, 22169300000000001000,
   22507600000000001000, 22865000000000002000, 23217699999999999000, 23559500000000000000, 23912800000000001000, 24262400000000000000, 24606699999999999000, 24956399999999999000, 25310800000000002000, 25662199999999999000,
   26008300000000002000, 26350799999999999000, 26703399999999999000, 27059700000000002000, 27400400000000000000, 27745199999999999000, 28097300000000001000, 28443899999999998000, 28799600000000001000, 29148600000000000000,
   29494099999999999000, 29844400000000002000, 30197600000000002000, 30547300000000002000, 30890300000000006000, 31240600000000001000, 31595599999999995000, 31947100000000002000, 32290100000000002000, 32633200000000007000,
   32979300000000000000, 33328299999999995000, 33680400000000001000, 34033000000000002000, 34384499999999996000, 34730599999999994000, 35084399999999993000, 35431100000000000000, 35774699999999995000, 36130400000000003000,
   36481200000000000000, 36829099999999997000, 37180499999999994000, 37533199999999991000, 37879800000000006000, 38222900000000006000, 38570199999999994000, 38919199999999994000, 39266500000000000000, 39619699999999995000,
   39973599999999996000, 40316699999999992000, 40663299999999998000, 41014200000000010000, 41361999999999997000, 41708100000000012000, 42062499999999998000, 42415799999999999000, 42763000000000000000, 43109699999999993000,
   43461200000000000000, 43806000000000003000, 44147299999999996000, 44503499999999994000, 44853199999999998000, 45198099999999988000, 45554299999999994000, 45908699999999998000, 46254799999999996000, 46599100000000000000,
   46952300000000005000, 47299600000000002000, 47644500000000001000, 47995299999999999000, 48349100000000007000, 48696999999999999000, 49043700000000001000, 49394499999999999000, 49739400000000007000, 50084299999999997000,
   50438099999999988000, 50788399999999996000, 51135000000000002000, 51488899999999997000, 51842100000000002000, 52190599999999989000, 52536600000000000000, 52885700000000000000, 53234199999999996000, 53584399999999999000,
   53935899999999997000, 54283100000000006000, 54627999999999997000, 54976399999999988000, 55326700000000004000, 55672800000000011000, 56020000000000012000, 56372700000000009000, 56724100000000011000, 57070200000000000000,
   57420399999999994000, 57774299999999998000, 58122100000000012000, 58468200000000010000, 58816100000000002000, 59165100000000006000, 59516000000000009000, 59865599999999999000, 60218299999999996000, 60564899999999993000,
   60911600000000004000, 61258299999999988000, 61610899999999997000, 61957600000000008000, 62304199999999996000, 62656900000000002000, 63009500000000003000, 63356199999999987000, 63708799999999988000, 64055499999999999000,
   64402200000000001000, 64754800000000010000, 65101499999999994000, 65448100000000000000, 65800800000000006000, 66147499999999999000, 66494099999999996000, 66840800000000007000, 67193399999999999000, 67540100000000001000,
   67886799999999994000, 68239400000000003000, 68597999999999999000, 68944700000000001000, 69291400000000003000, 69637999999999991000, 69990699999999997000, 70337300000000003000, 70683999999999996000, 71036600000000005000,
   71383299999999998000, 71735999999999995000, 72082600000000010000, 72435299999999989000, 72775999999999996000, 73128599999999988000, 73481199999999998000, 73827899999999991000, 74174600000000002000, 74527200000000002000,
   74873899999999995000, 75226499999999996000, 75573199999999998000, 75919900000000000000, 76272500000000001000, 76625100000000010000, 76971800000000012000, 77318499999999997000, 77665099999999985000, 78011800000000004000,
   78364399999999996000, 78711099999999998000, 79063800000000013000, 79410400000000001000, 79763100000000007000, 80115699999999990000, 80462399999999992000, 80808999999999997000, 81155700000000000000, 81508299999999991000,
   81854999999999993000, 82207699999999999000, 82554299999999987000, 82901000000000007000, 83247699999999991000, 83594299999999997000, 83947000000000003000, 84299599999999995000, 84646299999999997000, 84998900000000006000,
   85345600000000008000, 85692000000000000000]

/-- `kemu` (`kemu.h:18-518`), in units of 10⁻⁸ -/
def kemuN : List ℕ :=
  [86940, 88557, 90204, 91882, 93591, 95332, 97105, 98911, 100750, 102620, 104530, 106480, 108460, 110480,
   112530, 114620, 116750, 118930, 121140, 123390, 125690, 128020, 130410, 132830, 135300, 137820, 140380, 142990,
   145650, 148360, 151120, 153930, 156790, 159710, 162680, 165710, 168790, 171930, 175130, 178380, 181700, 185080,
   188520, 192030, 195600, 199240, 202940, 206720, 210560, 214480, 218470, 222530, 226670, 230890, 235180, 239560,
   244010, 248550, 253170, 257880, 262680, 267570, 272540, 277610, 282770, 288030, 293390, 298850, 304410, 310070,
   315840, 321710, 327690, 333790, 340000, 346320, 352760, 359320, 366010, 372810, 379750, 386810, 394010, 401330,
   408800, 416400, 424150, 432040, 440070, 448260, 456590, 465090, 473740, 482550, 491520, 500670, 509980, 519460,
   529120, 538970, 548990, 559200, 569600, 580200, 590990, 601980, 613180, 624580, 636200, 648030, 660080, 672360,
   684870, 697600, 710580, 723800, 737260, 750970, 764940, 779170, 793660, 808420, 823460, 838770, 854370, 870260,
   886450, 902940, 919730, 936840, 954260, 972010, 990090, 1008500, 1027300, 1046400, 1065800, 1085700, 1105800, 1126400,
   1147400, 1168700, 1190400, 1212600, 1235100, 1258100, 1281500, 1305300, 1329600, 1354400, 1379500, 1405200, 1431300, 1458000,
   1485100, 1512700, 1540800, 1569500, 1598700, 1628400, 1658700, 1689600, 1721000, 1753000, 1785600, 1818800, 1852600, 1887100,
   1922200, 1958000, 1994400, 2031500, 2069300, 2107700, 2146900, 2186900, 2227500, 2269000, 2311200, 2354200, 2398000, 2442600,
   2488000, 2534300, 2581400, 2629400, 2678300, 2728100, 2778900, 2830600, 2883200, 2936800, 2991500, 3047100, 3103800, 3161500,
   3220300, 3280200, 3341200, 3403300, 3466600, 3531100, 3596800, 3663700, 3731800, 3801300, 3872000, 3944000, 4017300, 4092000,
   4168200, 4245700, 4324700, 4405100, 4487000, 4570500, 4655500, 4742100, 4830300, 4920100, 5011600, 5104800, 5199800, 5296500,
   5395000, 5495400, 5597600, 5701700, 5807700, 5915700, 6025800, 6137900, 6252000, 6368300, 6486700, 6607400, 6730300, 6855500,
   6983000, 7112900, 7245200, 7379900, 7517200, 7657000, 7799400, 7944500, 8092200, 8242700, 8396100, 8552200, 8711300, 8873300,
   9038300, 9206500, 9377700, 9552100, 9729800, 9910700, 10095000, 10283000, 10474000, 10669000, 10867000, 11069000, 11275000, 11485000,
   11699000, 11916000, 12138000, 12364000, 12594000, 12828000, 13066000, 13309000, 13557000, 13809000, 14066000, 14328000, 14594000, 14866000,
   15142000, 15424000, 15711000, 16003000, 16300000, 16604000, 16912000, 17227000, 17547000, 17874000, 18206000, 18545000, 18890000, 19241000,
   19599000, 19964000, 20335000, 20713000, 21098000, 21491000, 21890000, 22298000, 22712000, 23135000, 23565000, 24003000, 24450000, 24905000,
   25368000, 25840000, 26320000, 26810000, 27308000, 27816000, 28334000, 28861000, 29397000, 29944000, 30501000, 31068000, 31646000, 32235000,
   32835000, 33445000, 34067000, 34701000, 35346000, 36004000, 36673000, 37356000, 38050000, 38758000, 39479000, 40213000, 40961000, 41723000,
   42499000, 43289000, 44095000, 44915000, 45750000, 46601000, 47468000, 48351000, 49250000, 50166000, 51099000, 52050000, 53018000, 54004000,
   55008000, 56031000, 57073000, 58135000, 59216000, 60318000, 61440000, 62582000, 63746000, 64932000, 66140000, 67370000, 68623000, 69899000,
   71199000, 72524000, 73872000, 75246000, 76646000, 78072000, 79524000, 81003000, 82509000, 84044000, 85607000, 87199000, 88821000, 90473000,
   92156000, 93870000, 95616000, 97394000, 99206000, 101050000, 102930000, 104850000, 106800000, 108780000, 110800000, 112870000, 114960000, 117100000,
   119280000, 121500000, 123760000, 126060000, 128410000, 130790000, 133230000, 135710000, 138230000, 140800000, 143420000, 146090000, 148800000, 151570000,
   154390000, 157260000, 160190000, 163170000, 166200000, 169290000, 172440000, 175650000, 178920000, 182240000, 185630000, 189090000, 192600000, 196180000,
   199830000, 203550000, 207340000, 211190000, 215120000, 219120000, 223200000, 227350000, 231580000, 235880000, 240270000, 244740000, 249290000, 253930000,
   258650000, 263460000, 268360000, 273360000, 278440000, 283620000, 288890000, 294270000, 299740000, 305310000, 310990000, 316780000, 322670000, 328670000,
   334780000, 341010000, 347350000, 353810000, 360400000, 367100000, 373930000, 380880000, 387970000, 395180000, 402530000, 410020000, 417640000, 425410000,
   433320000, 441380000, 449590000, 457960000, 466470000, 475150000, 483990000, 492990000, 502160000, 511500000, 521010000, 530700000, 540570000, 550630000,
   560870000, 571300000, 581930000, 592750000, 603780000, 615010000, 626440000, 638100000, 649960000, 662050000, 674370000, 686910000, 699690000, 712700000,
   725960000, 739460000, 753210000, 767220000, 781490000, 796030000, 810830000, 825910000, 841270000, 856920000]

/-- `beta` (`corrlengths.h:17`), in units of 10⁻¹⁰, row after row -/
def betaN : List ℕ :=
  [4926100, 235420000, 185140000, 1638800000, 661330000, 4293200000, 32775000, 911050000, 748330000, 198590000, 91762000, 181530000,
   12320000, 596900000, 1168100000, 5398000000, 3914200000, 17770000, 140680000, 1657800000, 147650000, 4766700000, 14429000000, 1319200000,
   9500600000, 25791000000, 61796000000, 67477000000, 66939000000, 41222000000, 5528800000, 50509000000, 8288100000, 63920000000, 88121000000, 8907400000,
   58848000, 618900000, 1123500, 3608000000, 2754600000, 2657900, 143980000000, 16802000000, 6981200000, 35500000000, 55369000000, 13503000000,
   1296000000, 2209700000, 168210000, 7390500000, 30859000000, 736970000]

/-- `lamz` (`precisions.h:20-21`), in units of 10⁻⁵ -/
def lamzN : List ℕ := [33406, 31885, 31345, 30722, 118590, 30259, 31800, 91044, 32531]

/-- `lamws` (`precisions.h:17-18`), in units of 10⁻³ -/
def lamwsN : List ℕ := [1700400000000000, 8864900000, 213750, 125550, 124160000000000000, 77063000000000, 11523000000000000, 5344500000000000000, 80629]

/-- `beta` (`corrlengths_noh.h:17`), in units of 10⁻¹⁰, row after row -/
def betaNohN : List ℕ :=
  [22081000, 581820000, 54258000, 1106200000, 4237900000, 43862000, 1360000000, 1284500000, 98347000, 209690000, 1260600000, 7280800000,
   13557000000, 1092500000, 1543700000, 127390000, 4358400000, 3605100000, 13146000000, 66212000000, 337800000, 2417100000, 10191000000, 16843000000,
   30112000000, 5329900000, 22220000000, 46382000000, 65865000000, 118960000000]

/-- `lamz` (`precisions_noh.h:20-21`), in units of 10⁻⁵ -/
def lamzNohN : List ℕ := [37247, 35299, 66957, 57905, 64436, 74810]

/-- `lamws` (`precisions_noh.h:17-18`), in units of 10⁻³ -/
def lamwsNohN : List ℕ := [997160000000, 596860000000, 18073000000, 3022800000000, 36111000000000000, 314660000000000]

/-- `aemu` (`design.h:162-163`, `design_noh.h:62-63`), in units of 10⁻⁴ -/
def aemuN : List ℕ := [2000, 2500, 2857, 3333, 4000, 5000, 6000, 7000, 8000, 9000, 10000]

noncomputable section

/-- The shipped tables of the emulator with a Hubble constant (`emu.c:36-39`, `design.h:156-163`, `meansd.h:5519`).  The limits are the doubles of 0.0215, 0.12, 0.85, 55, -1.3, 0.6 and of their sums with
0.002, 0.035, 0.2, 30, 0.6, 0.3.  The design, the weights, the basis and the means are arguments: nothing depends on their values. -/
def shipped (x : Fin 137 → Fin 6 → ℝ) (w : Fin 9 → Fin 137 → ℝ) (K : ℕ → Fin 9 → ℝ) (mean : ℕ → ℝ) : Table where
  m := 137
  p := 6
  q := 9
  rs := 11
  nk := 500
  ns := 582
  x := x
  w := w
  beta := fun i l => betaN.getD (6*i + l) 0 / 10 ^ 10
  lamz := fun i => lamzN.getD i 0 / 10 ^ 5
  lamws := fun i => lamwsN.getD i 0 / 10 ^ 3
  K := K
  mean := mean
  sd := 0.16002
  xmin := ![dy 6196953087261802 58, dy 8646911284551352 56, dy 7656119366529843 53, 55, dy (-5854679515581645) 52, dy 5404319552844595 53]
  xrange := ![dy 4611686018427388 61, dy 5044031582654956 57, dy 7205759403792794 55, 30, dy 5404319552844595 53, dy 5404319552844595 54]
  top := ![dy 6773413839565226 58, dy 5584463537939415 55, dy 4728779608739021 52, 85, dy (-6305039478318695) 53, dy 8106479329266892 53]
  kemu := fun i => kemuN.getD i 0 / 10 ^ 8
  ksim := fun i => ksimN.getD i 0 / 10 ^ 19
  aemu := fun i => aemuN.getD i 0 / 10 ^ 4

/-- The shipped tables of the emulator without a Hubble constant (`emu_noh.c:36-39`, `design_noh.h:56-63`, `meansd_noh.h:5519`), likewise -/
def shippedNoh (x : Fin 37 → Fin 5 → ℝ) (w : Fin 6 → Fin 37 → ℝ) (K : ℕ → Fin 6 → ℝ) (mean : ℕ → ℝ) : Table where
  m := 37
  p := 5
  q := 6
  rs := 11
  nk := 500
  ns := 582
  x := x
  w := w
  beta := fun i l => betaNohN.getD (5*i + l) 0 / 10 ^ 10
  lamz := fun i => lamzNohN.getD i 0 / 10 ^ 5
  lamws := fun i => lamwsNohN.getD i 0 / 10 ^ 3
  K := K
  mean := mean
  sd := 0.16002
  xmin := ![dy 6196953087261802 58, dy 8646911284551352 56, dy 7656119366529843 53, dy (-5854679515581645) 52, dy 5404319552844595 53]
  xrange := ![dy 4611686018427388 61, dy 5044031582654956 57, dy 7205759403792794 55, dy 5404319552844595 53, dy 5404319552844595 54]
  top := ![dy 6773413839565226 58, dy 5584463537939415 55, dy 4728779608739021 52, dy (-6305039478318695) 53, dy 8106479329266892 53]
  kemu := fun i => kemuN.getD i 0 / 10 ^ 8
  ksim := fun i => ksimN.getD i 0 / 10 ^ 19
  aemu := fun i => aemuN.getD i 0 / 10 ^ 4

end

end Verif.Emu
