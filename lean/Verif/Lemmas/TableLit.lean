/-!
# Literal values for the encryption table

Not part of the model: certificates that let the kernel evaluate `encT` on literals quickly. They are
checked against the model's generator in `Verif.Lemmas.Table`.
-/

set_option maxRecDepth 40000

namespace Mopaq

/-- The 2560 seeds the generator draws, in order. -/
def seedsLit : List Nat := [
    2446790, 1062626, 1406712, 2474417, 1719798, 2463325, 333298, 2515411, 1251642, 2664088,
    262846, 2097520, 2143124, 2251218, 1781953, 1844091, 1222732, 1846541, 1528982, 980949,
    2381899, 1339860, 2506526, 141017, 849910, 2779242, 676081, 624038, 2507272, 234267,
    1321348, 192526, 1696129, 2300903, 2400172, 827782, 13242, 1655253, 2783809, 1246956,
    2078338, 2541577, 1726189, 465997, 2325568, 2687094, 342393, 856083, 754664, 2058304,
    37327, 1869675, 1624529, 1739512, 2131372, 782218, 2706351, 2749518, 2552987, 356236,
    2586458, 1743908, 2680872, 2360846, 1504438, 709152, 1961710, 1944092, 2538045, 1284689,
    1202557, 2120869, 2265546, 776750, 2022851, 1198108, 1564744, 2654996, 1922549, 2641373,
    219674, 2293426, 1465547, 1440183, 1065886, 1814212, 284060, 1953067, 863717, 1708914,
    1102825, 839181, 1438117, 807636, 291195, 48739, 499972, 980037, 2267899, 1070875,
    2437837, 2739704, 1326237, 803651, 2589273, 2095783, 1925999, 276420, 998067, 1725446,
    373122, 1901005, 2744576, 1935237, 1431170, 2735464, 796237, 1662523, 896356, 196383,
    2178254, 1050062, 2632415, 1896127, 2134826, 1213968, 751041, 1605429, 2148215, 91390,
    238941, 1905598, 522498, 999584, 1915071, 1706623, 816450, 1392945, 753542, 1918054,
    2079498, 2686577, 277768, 1166567, 418322, 1958599, 1555217, 1464121, 1261933, 1154260,
    1676150, 2599731, 606830, 356272, 2590958, 2306408, 292094, 161114, 565832, 823928,
    2327695, 156766, 22332, 2791503, 2208706, 2060359, 294202, 424614, 2745099, 2000612,
    1214436, 809541, 529320, 1852334, 2253107, 2018078, 601483, 2484100, 133970, 2765238,
    1721784, 2711575, 606315, 291897, 136489, 283910, 1934317, 1316170, 2341479, 1879766,
    89701, 27816, 680800, 1213913, 744166, 746054, 982054, 2520024, 1828267, 2040935,
    662405, 1710741, 1331200, 1424026, 1842464, 1019357, 1590493, 281215, 1597442, 1149840,
    1123650, 646103, 2469194, 1066923, 1943837, 2506170, 96517, 879816, 925086, 991430,
    895821, 129508, 2207488, 1908109, 836373, 1087117, 1671884, 2066481, 1059452, 1009962,
    416118, 1683099, 672153, 133038, 2648738, 1140299, 2727228, 2562940, 1600361, 1514715,
    1993777, 360061, 268380, 2789270, 1929581, 724170, 1042757, 1719290, 2399825, 784407,
    183773, 602004, 2549225, 2682189, 2525471, 2509142, 468017, 2578068, 695158, 212460,
    1391676, 594917, 1663350, 999731, 1933446, 1207295, 2713119, 799315, 2047273, 1454655,
    78683, 1446769, 1889136, 1260951, 1031510, 313415, 30036, 958300, 2346977, 2567016,
    2109861, 889546, 2141336, 2027718, 1806483, 2114138, 1424171, 1860589, 488779, 2377115,
    741860, 457804, 1301443, 500604, 1059037, 958087, 2320352, 2035094, 2728483, 2719815,
    1636315, 416559, 1738224, 1970372, 230639, 867848, 2225289, 1337031, 2152901, 677140,
    756413, 2276929, 2199625, 925234, 1009930, 412118, 1183099, 2484822, 224220, 65473,
    2591722, 2401908, 1044782, 1972415, 486014, 2031490, 2277983, 2331375, 616766, 1598272,
    1253590, 111385, 2738316, 1152737, 1485775, 1172480, 1157447, 2074525, 2064952, 868327,
    2285164, 432797, 971771, 1234649, 539963, 386506, 777802, 2154351, 858390, 1043039,
    1754540, 1213669, 713666, 2525960, 2570267, 2516236, 1354767, 1573698, 978043, 2018649,
    672858, 221163, 2479551, 2361548, 1592188, 493090, 119787, 992363, 1012446, 726618,
    1348757, 822448, 2142695, 2197593, 671234, 18163, 2270378, 1380750, 2025370, 1512983,
    1777277, 1259591, 861510, 1433039, 172886, 2037332, 212030, 1337926, 2264776, 680500,
    1176413, 1649072, 2011184, 2535936, 1021064, 1803868, 1787263, 2507841, 305392, 1823364,
    1428060, 2346714, 2534141, 796689, 1719023, 2366450, 2204938, 1589359, 139465, 655910,
    898866, 510133, 2250162, 1649953, 2121309, 2320546, 2059344, 167327, 1342457, 34948,
    1572300, 803293, 2544523, 2094439, 1757999, 1646044, 1632684, 2758887, 927909, 1344305,
    265948, 2485270, 280220, 1473067, 2380183, 1125360, 859853, 1225914, 2244291, 916078,
    2661633, 2752174, 88784, 2709394, 333690, 2564411, 1784236, 2129466, 543968, 887131,
    1839461, 643982, 2204069, 1480734, 542355, 685506, 1802163, 1574138, 1033043, 505040,
    1613537, 365512, 949755, 1278852, 472932, 396240, 1994552, 456936, 1192943, 919119,
    245555, 2732348, 406737, 510474, 2292787, 1385672, 2640620, 125549, 1712613, 1565200,
    2711996, 658940, 1277616, 318432, 657161, 1055241, 483587, 1728115, 706747, 1661085,
    716606, 97257, 972316, 1302774, 666979, 2282491, 98672, 1149191, 1042525, 1690290,
    1571028, 644293, 2242944, 747703, 1188179, 323619, 1305536, 1012229, 699493, 754335,
    2017179, 489108, 2418240, 290079, 2705442, 2635893, 2330877, 554516, 2205631, 1675984,
    2578981, 809283, 497070, 617287, 1663397, 1005606, 2667821, 729471, 1705382, 661325,
    1575741, 1233418, 386088, 725552, 1215507, 943416, 486477, 2089365, 1123749, 658478,
    1219866, 1488291, 1486980, 1323105, 412151, 1187224, 204244, 364676, 845255, 2197367,
    642984, 2079319, 2664202, 277096, 1082567, 1103134, 877806, 673836, 343413, 983583,
    2711149, 553065, 2024256, 1373733, 1148245, 924275, 890055, 2204961, 1592234, 498840,
    838537, 1357617, 1929948, 770045, 1184726, 2688197, 480268, 1313240, 1975229, 837764,
    1260992, 1036635, 954040, 1814477, 317185, 501286, 1144287, 429525, 562771, 441303,
    2035021, 2719358, 1579190, 1664543, 1148856, 1000650, 2048321, 1585655, 2472668, 1501173,
    301027, 1277739, 333807, 2579036, 816158, 1356445, 1783448, 2030966, 2212483, 2532484,
    589564, 994225, 1245196, 1858338, 207404, 759676, 2684804, 56143, 1425472, 2023214,
    1243483, 1644213, 1403809, 2111542, 1099671, 444931, 2488521, 686595, 1938288, 1812545,
    75685, 1072019, 2580837, 1041283, 1535040, 1738199, 1967247, 2636217, 2371377, 24610,
    280050, 1451817, 2520136, 1842267, 994732, 1308571, 1391604, 585917, 538350, 184881,
    740504, 288304, 2483567, 67345, 29519, 893675, 2657461, 2230674, 2010156, 2407436,
    1735782, 1665122, 1221231, 1658916, 445481, 2557271, 891736, 2415086, 2692032, 959643,
    2514852, 1181767, 2318322, 1781344, 1767966, 95716, 779691, 2390476, 2411985, 2304407,
    41969, 2449925, 1454501, 59433, 1836722, 301607, 1350239, 1007698, 133118, 2658738,
    2390299, 2389860, 2334985, 1068016, 2080462, 10874, 1359253, 2134448, 1166718, 437197,
    1521771, 79574, 1558144, 1829996, 2257060, 2512203, 850642, 74539, 928769, 1451805,
    2518636, 1654767, 2723059, 2041815, 772405, 1479726, 416355, 1712724, 1579075, 1650168,
    2148184, 87515, 2550769, 78986, 1484644, 1031105, 262790, 2090520, 1268124, 1928135,
    543420, 818631, 1665570, 1277231, 270307, 233942, 1280723, 706807, 1668585, 1654106,
    2640434, 102299, 1602566, 1790340, 96263, 848066, 2548742, 2621814, 571002, 1470178,
    2019058, 723983, 1019382, 1593618, 671840, 93913, 554316, 2180631, 1347187, 626198,
    2777272, 429831, 601021, 2426350, 1303829, 798854, 1989648, 2640139, 65424, 2585597,
    1636283, 412559, 1238224, 986838, 321821, 1080786, 880509, 1011711, 634743, 1049194,
    2523915, 2314642, 1321344, 192026, 1633629, 80809, 1712519, 1553450, 1243246, 1614588,
    496887, 594412, 1600225, 1497715, 2664980, 374346, 2054005, 2296155, 1806672, 2137763,
    1581093, 1902418, 124998, 1643738, 1344434, 282073, 1704692, 575075, 1979303, 1347014,
    604573, 74147, 879769, 919211, 257055, 1373645, 1137245, 2345478, 2379641, 1057610,
    779712, 2393101, 2740110, 1376987, 1554995, 1436371, 589386, 971975, 1260149, 931260,
    1763180, 2293669, 1495922, 2440855, 320751, 947036, 938977, 2727805, 2635065, 2227377,
    1598031, 1223465, 1938166, 1797295, 965638, 468024, 2578943, 804533, 2699523, 1896018,
    2121201, 2307046, 371844, 1741255, 2349247, 54563, 1227972, 2501541, 2314095, 1252969,
    33760, 1423800, 1814214, 284310, 1984317, 1973764, 654639, 739991, 224179, 60348,
    1951097, 617467, 1685897, 1021903, 1908743, 915623, 2604758, 1235205, 609463, 685397,
    1788538, 2667216, 653846, 640866, 1814569, 328685, 1938786, 1874795, 2264529, 649625,
    113241, 174113, 2190707, 2606687, 1476330, 2788058, 1778081, 1360091, 2239198, 279453,
    1377192, 1580620, 1843293, 1122982, 562603, 420303, 2206224, 1750109, 659794, 1384366,
    2477370, 2088923, 1068499, 2140837, 1965343, 2398217, 583407, 224600, 112973, 140613,
    799410, 2059148, 142827, 1076160, 302259, 1431739, 10386, 1298253, 101854, 1546941,
    429621, 574771, 1941303, 2189420, 2445812, 940376, 106477, 2124816, 2758921, 932159,
    1875555, 2359529, 1339813, 2500651, 2202845, 1327734, 990776, 814071, 1095570, 2728509,
    2723065, 2042565, 866155, 2013664, 49733, 624222, 2530272, 313064, 2782364, 1066331,
    1869837, 1644779, 1474559, 2566683, 2068236, 1278827, 469807, 5615, 701878, 1052460,
    135962, 218035, 2088551, 1021999, 1920743, 2415623, 2759157, 961659, 2766852, 1923534,
    2764498, 1629284, 2333887, 930766, 1701430, 167325, 1342207, 3698, 462253, 1857568,
    111154, 2709441, 339565, 502583, 1306412, 1121729, 405978, 415599, 1618224, 951387,
    1482852, 807105, 224820, 140473, 781910, 2667851, 733221, 2174132, 534812, 2538834,
    1383314, 2345870, 2428641, 1590204, 245090, 2674223, 1529721, 1073324, 2743962, 1858487,
    226029, 291598, 99114, 1204441, 2356369, 944813, 661102, 1547866, 545246, 1046881,
    2234790, 2524656, 2407267, 1714657, 1820700, 1095060, 2664759, 346721, 1397083, 1270792,
    2261635, 287875, 2429942, 1752829, 999794, 1941321, 2191670, 2727062, 2542190, 1802814,
    1655513, 20106, 2513253, 981892, 2499774, 2093220, 1605624, 2172590, 342062, 814708,
    1175195, 1496822, 2553355, 402236, 2744052, 1869737, 1632279, 2708262, 192190, 1654129,
    2643309, 461674, 1785193, 2249091, 1516078, 2164152, 2083515, 392499, 1526927, 724074,
    1030757, 219290, 2245426, 1057953, 822587, 2160070, 1573265, 923918, 845430, 2219242,
    581156, 2739428, 1291737, 2083557, 397749, 2183177, 1665437, 1260606, 988385, 515196,
    86834, 2465644, 623173, 2399147, 699657, 774835, 1783476, 2034466, 2649983, 1295924,
    2606932, 1506955, 1023777, 2142993, 2234843, 2531281, 439189, 1770771, 446341, 2664771,
    348221, 1584583, 2338668, 1528391, 907074, 1536133, 1874824, 2268154, 1102750, 829806,
    266242, 2522020, 2077767, 2470202, 1192923, 916619, 2729258, 20487, 2560878, 1342611,
    54198, 1182347, 2390822, 2455235, 2118251, 1938296, 1813545, 200685, 2716004, 1159940,
    2386150, 1871235, 1819529, 948685, 1145102, 531400, 2112334, 1198671, 1635119, 267059,
    2624145, 862377, 1541414, 2534949, 897689, 363008, 636755, 1300694, 406979, 540724,
    481631, 1483615, 902480, 961883, 2794852, 2627331, 1260627, 991010, 843321, 1955617,
    1182467, 2405822, 1534032, 1612199, 198262, 2413129, 2447407, 1139751, 2658728, 2389049,
    2233610, 2377156, 746985, 1098429, 289681, 2655692, 2009549, 2331561, 640016, 1708319,
    1028450, 2727118, 2549190, 2677814, 1978596, 1258639, 742510, 539054, 272881, 555692,
    2352631, 477563, 975115, 1652649, 2458309, 2502501, 2434095, 2271954, 1577750, 1484543,
    1018480, 1480868, 559105, 2779256, 677831, 842788, 1888992, 1242951, 1577713, 1479918,
    440355, 1916521, 1887873, 1103076, 870556, 2563789, 1706486, 799325, 2048523, 1610905,
    36512, 1767800, 74966, 982144, 2531274, 438314, 1661396, 755481, 2160429, 1618140,
    940887, 170352, 1720582, 2561325, 1398486, 1446167, 1813886, 243310, 2451723, 1679251,
    191153, 1524504, 421199, 2318224, 1769094, 236716, 1627473, 2107512, 595921, 1788850,
    2706216, 2732643, 443612, 2323646, 2446844, 1069376, 2250462, 1687453, 1216403, 1055416,
    505462, 1666287, 1366856, 288620, 2523067, 2208642, 2052359, 2090405, 1253749, 131260,
    2426488, 1321079, 158901, 289207, 2596442, 195705, 2093504, 1641124, 1017684, 1381368,
    2102620, 2780624, 848831, 2644367, 593924, 1539225, 2261324, 249000, 366770, 1107005,
    1361681, 2437948, 2753579, 264409, 2292895, 1399172, 1531917, 1347824, 705823, 1545585,
    260121, 1756895, 1508044, 1159902, 2381400, 1277485, 302057, 1406489, 2446542, 1031626,
    327915, 1842536, 1028357, 2715493, 1096065, 2790384, 2068831, 1353202, 1378073, 1690745,
    1627903, 2161262, 1722265, 2771700, 2529534, 220814, 2435926, 2500829, 2225095, 1312781,
    1917854, 2054498, 2357780, 1121188, 338353, 351083, 1942333, 2318170, 1762344, 2189169,
    2414437, 2610907, 2003830, 1616686, 759137, 2617429, 22877, 63425, 2335722, 1160141,
    2411275, 2215657, 133031, 2647863, 1030924, 240165, 2058598, 74077, 871019, 2621664,
    552252, 1922631, 2651623, 1500924, 269902, 183317, 545004, 1016631, 1249743, 2426713,
    1349204, 878323, 738461, 32929, 1319925, 14651, 1831378, 2429810, 1736329, 1733497,
    1379497, 1868745, 1508279, 1189277, 460869, 1684568, 855778, 716539, 88882, 2721644,
    1864940, 1032654, 456415, 1127818, 1167103, 485322, 1944990, 2650295, 1334924, 1889526,
    1309701, 1532854, 1464949, 1365433, 110745, 2658316, 2337549, 1388516, 199917, 2620004,
    344752, 1150958, 1263400, 1337635, 2228401, 1726031, 446247, 2653021, 1675674, 2540231,
    1557939, 1804371, 1850138, 1978607, 1260014, 914385, 2450008, 1464876, 1356308, 1766323,
    2686544, 273643, 650942, 277866, 1178817, 1949572, 426842, 227396, 462473, 1885068,
    752451, 1781679, 1809841, 2533888, 765064, 562101, 357553, 2751083, 2748612, 2439737,
    181001, 255504, 1179770, 2068697, 1336452, 2080526, 18874, 2359253, 1305313, 984354,
    11321, 1415128, 730214, 1798257, 1085888, 1518259, 2436777, 2607204, 1540955, 2477574,
    2114423, 1459796, 721308, 685007, 1739788, 2165872, 2298515, 2101672, 2662124, 17346,
    2168253, 2596140, 157955, 170957, 1796207, 829638, 245242, 2693223, 1108518, 1550806,
    912746, 2245133, 1021328, 1836868, 319857, 835286, 951242, 1464727, 1337683, 2234401,
    2476031, 1921548, 2516248, 1356267, 1761198, 2045919, 1285405, 1292057, 2123557, 2601546,
    833705, 753617, 1927429, 455170, 972193, 1287399, 1541307, 2521574, 2022017, 1093858,
    2514509, 1138892, 2551353, 151986, 2221035, 805281, 2793023, 2398706, 644532, 2272819,
    1685875, 1019153, 1564993, 2686121, 220768, 2430176, 1782079, 1859841, 395279, 1874427,
    2218529, 492031, 2783615, 1222706, 1843291, 1122732, 531353, 2106459, 464296, 2112943,
    1274796, 2762135, 1333909, 1762651, 2227544, 1618906, 1036637, 954290, 1845727, 1427232,
    2243214, 781453, 2610726, 1981205, 1584764, 2361293, 1560313, 2101121, 2593249, 2592783,
    2534533, 845689, 2251617, 1831828, 2486060, 378970, 2632005, 1844877, 1320982, 146776,
    1569785, 488918, 2394490, 117532, 710488, 2128710, 449468, 259443, 1672145, 2099106,
    2341374, 1866641, 1245279, 1868713, 1504279, 689277, 2273538, 1775750, 1068716, 2167962,
    2559765, 1203486, 2236994, 3953, 494128, 249537, 433895, 1109021, 1613681, 383512,
    403552, 112349, 62613, 2234222, 2453656, 1920876, 2432248, 2041079, 680405, 1164538,
    164697, 1013707, 884243, 1478461, 258230, 1520520, 2719402, 1584690, 2352043, 404063,
    176224, 2454582, 2036626, 123780, 1491488, 1886605, 944576, 631477, 640944, 1824319,
    1547435, 491371, 2701115, 2095018, 1830374, 2304310, 29844, 934300, 2143180, 2258218,
    2656953, 2167174, 2461265, 75798, 1086144, 1550259, 844371, 2086867, 811499, 774070,
    1687851, 1266153, 1681760, 504778, 1580787, 1864168, 936154, 2374930, 468735, 2667818,
    729096, 1658507, 394356, 1759052, 1777669, 1308591, 1394104, 898417, 454008, 826943,
    2704570, 2526893, 2686892, 317143, 496036, 488037, 2284365, 332922, 2468411, 969048,
    894274, 2732336, 405237, 322974, 1224911, 2118916, 2021421, 1019358, 1590618, 296840,
    754364, 2020804, 942233, 338602, 382208, 240552, 2106973, 528546, 1755584, 1344169,
    248948, 360270, 294505, 462489, 1887068, 1002451, 2273446, 1764250, 2427419, 1437454,
    724761, 1116632, 2565056, 1864861, 1022779, 2018243, 622108, 2266022, 836250, 1071742,
    2546212, 2305564, 186594, 954629, 1888102, 1131701, 1652478, 2436934, 2626829, 1197877,
    1535869, 1841824, 939357, 2775305, 183956, 624879, 2612397, 2190080, 2528312, 68064,
    119394, 943238, 464227, 2104318, 196671, 2214254, 2753859, 299409, 1075489, 218384,
    2132176, 882718, 1287836, 1595932, 961090, 2695727, 1421518, 1528964, 978699, 2100649,
    2534249, 810189, 610320, 792522, 1198148, 1569744, 483793, 1753865, 1129294, 1351603,
    1178198, 1872197, 1939779, 1998920, 1002936, 2334071, 953766, 1780227, 1628341, 2216012,
    177406, 2602332, 931955, 1850055, 1968232, 2759342, 984784, 65071, 2541472, 1713064,
    1621575, 1370262, 714370, 2613960, 2385455, 1784360, 2144966, 2481468, 2601173, 787080,
    517898, 424584, 2741349, 1531862, 1340949, 2642651, 379424, 2688755, 550018, 1643381,
    1299809, 296354, 693614, 19460, 2432503, 2072954, 1868577, 1487279, 1360480, 2287823,
    765172, 575601, 2045053, 1177155, 1741822, 2420122, 525329, 1353459, 1410198, 113964,
    264488, 2302770, 2633547, 2037627, 248905, 354895, 2418833, 364204, 786255, 414773,
    1514974, 2026152, 1610733, 15012, 1876503, 2478029, 2171298, 180562, 200629, 2709004,
    284940, 2063067, 632702, 794069, 1391523, 575792, 2068928, 1365327, 97495, 1002066,
    2225321, 1341031, 2652901, 1660674, 665231, 2063991, 748202, 1250554, 2528088, 40064,
    2211800, 2447109, 1102501, 798681, 1968023, 2733217, 515362, 107584, 2263191, 482375,
    1576615, 1342668, 61323, 2072972, 1870827, 1768529, 166091, 1187957, 295869, 632989,
    829944, 283492, 1882067, 377326, 2426505, 1323204, 424526, 2734099, 625612, 2704022,
    2458393, 2513001, 950392, 1358477, 2037448, 226530, 354223, 2334833, 1049016, 2501665,
    2329595, 394266, 1747802, 371419, 1688130, 1301028, 448729, 167068, 1310082, 1580479,
    1825668, 1716060, 1996075, 647311, 2620194, 368502, 1323505, 462151, 1844818, 1313607,
    2021104, 979733, 2229899, 1913281, 1482873, 809730, 552945, 2009256, 2294936, 1654297,
    2664309, 290471, 2754442, 372284, 1796255, 835638, 995242, 1372321, 971745, 1231399,
    133713, 2733113, 502362, 1278787, 464807, 2176818, 870562, 2564539, 1800236, 1333263,
    1681901, 522403, 987709, 430696, 709146, 1960960, 1850342, 2004107, 1651311, 2291059,
    1169672, 806447, 142570, 1044035, 1879040, 2795154, 2665081, 386971, 835927, 1031367,
    295540, 591864, 1281725, 832057, 547617, 1343256, 134823, 75660, 1068894, 2190212,
    2544812, 2130564, 681218, 1266163, 1683010, 661028, 1538616, 2185199, 1918187, 2096123,
    1968499, 2792717, 2360456, 1455688, 207808, 810176, 608695, 589397, 973350, 1432024,
    46011, 158972, 298082, 909614, 1853633, 2415482, 2741532, 1554737, 1404121, 2150542,
    382265, 247677, 201395, 8551, 1068878, 2188212, 2294812, 1638797, 726809, 1372632,
    1010620, 498368, 779537, 2371226, 5735, 716878, 131257, 2426113, 1274204, 2688135,
    472518, 344490, 1118208, 2762056, 1324034, 528276, 1721834, 2717825, 1387565, 81042,
    1741644, 2397872, 540282, 426381, 169771, 1647957, 1871809, 1891279, 1528826, 961449,
    2740602, 1438487, 853886, 480039, 1284615, 1193307, 964619, 340649, 638083, 1466694,
    1583558, 2210543, 2289984, 1035297, 786790, 481648, 1485740, 1168105, 610572, 824022,
    2339445, 1625516, 1862887, 776029, 1932726, 1117295, 2647931, 1039424, 1302665, 653354,
    579366, 2515678, 1285017, 1243557, 1653463, 2560059, 1240236, 1238338, 1001088, 2103071,
    40796, 2303300, 2699797, 1930268, 810045, 592320, 1338725, 2364651, 1980063, 1442014,
    1294761, 2461557, 112298, 56238, 1437347, 711386, 2240960, 499703, 946412, 860977,
    1366414, 233370, 1209223, 157916, 166082, 1186832, 155244, 2628285, 1379877, 1916245,
    1853373, 2382982, 1475235, 2651183, 1445924, 1783511, 2038841, 400655, 2546427, 2332439,
    749766, 1446054, 1799761, 1273888, 2648635, 1127424, 1117853, 2717681, 1369565, 627245,
    111944, 11988, 1498503, 2763480, 1502034, 408652, 749849, 1456429, 300433, 1203489,
    2237369, 50828, 761097, 66226, 2685847, 186518, 945129, 700602, 892960, 2568086,
    2243611, 831078, 425242, 27396, 628300, 243819, 2515348, 1243767, 1679713, 248903,
    354645, 2387583, 2050360, 1840530, 777607, 2129976, 607718, 467272, 2484943, 239345,
    1956098, 1242592, 1532838, 1462949, 1115433, 2415181, 2703907, 2444018, 716126, 37257,
    1860925, 530779, 2034709, 2680358, 2296596, 1861797, 639779, 1678694, 121528, 1209988,
    253541, 934395, 2155055, 946390, 858227, 1022664, 2003868, 1621436, 1352887, 1338698,
    2361276, 1558188, 1835496, 148357, 1767410, 26216, 480800, 1379740, 1899120, 2508951,
    444142, 2389896, 2339485, 1630516, 2487887, 607345, 420647, 2249224, 1532703, 1446074,
    1802261, 1586388, 2564293, 1769486, 285716, 2160067, 1572890, 877043, 578461, 2402553,
    1125407, 865728, 1960289, 1766467, 2704544, 2523643, 2280642, 2663750, 220596, 2408676,
    1890782, 1466701, 1584433, 2319918, 1980844, 1539639, 2313074, 1125344, 857853, 975914,
    1752524, 961669, 2768102, 2079784, 2722327, 1950315, 519717, 651959, 404991, 292224,
    177364, 2597082, 275705, 908692, 1738383, 1990247, 2715014, 1036190, 898415, 453758,
    795693, 1594523, 784965, 253523, 932145, 1873805, 2140779, 1958093, 1491967, 1946480,
    40342, 2246550, 1198453, 1607869, 2453215, 1865751, 1134029, 1943478, 2461295, 79548,
    1554894, 1423746, 1807464, 2236763, 2771281, 2477159, 2062548, 567827, 1073303, 2741337,
    1530362, 1153449, 1574775, 1112668, 2069556, 1443827, 1521386, 31449, 1134925, 2055478,
    2480280, 2452673, 1798001, 1053888, 314462, 160911, 540457, 448256, 107943, 2308066,
    499344, 901537, 844008, 2041492, 732030, 2025257, 1498858, 11652, 1456503, 309683,
    2359739, 1366063, 189495, 1317254, 2476979, 2040048, 551530, 1832381, 2555185, 630986,
    579569, 2541053, 1660689, 667106, 2298366, 2083047, 333999, 2603036, 1019955, 1665243,
    1236356, 753338, 1892554, 1688201, 1309903, 1558104, 1824996, 1632060, 2680887, 2362721,
    1738813, 2043997, 1045155, 2019040, 721733, 738132, 2788007, 1771706, 563216, 496928,
    599537, 2240850, 485953, 2023865, 1324858, 631276, 615819, 1479897, 437730, 1588396,
    19090, 2386253, 1884110, 632701, 793944, 1375898, 1418870, 1197964, 1546744, 404996,
    292849, 255489, 1177895, 1834322, 1607, 200878, 2740129, 1379362, 1851870, 2195107,
    360484, 321255, 1010036, 425368, 43146, 2597050, 271705, 408692, 754849, 2081429,
    131749, 2487613, 573095, 1731803, 1167747, 565822, 822678, 2171445, 198937, 2497504,
    1809470, 2487513, 560595, 169303, 1589457, 151715, 2187160, 2163312, 1978515, 1248514,
    2273088, 1719500, 2426075, 1269454, 2094385, 1751249, 802294, 2419648, 466079, 2335818,
    1172141, 1115072, 2370056, 2655688, 2009049, 2269061, 1216125, 1020666, 1754118, 1160919,
    2508525, 390892, 1326052, 780526, 2494851, 1477845, 181230, 284129, 1961692, 1941842,
    2256795, 2479078, 2302423, 2590172, 2208158, 1991859, 120311, 1057863, 811337, 753820,
    1952804, 830842, 395742, 1932302, 1064295, 1615337, 590512, 1112725, 2076681, 2334452,
    1001391, 2140946, 1978968, 1305139, 962604, 88774, 2708144, 177440, 2606582, 1463205,
    1147433, 822775, 2183570, 1714562, 1808825, 2406888, 1667282, 1491231, 1854480, 2521357,
    1994892, 499436, 913037, 2281508, 2772000, 2567034, 2112111, 1170796, 946947, 927852]

end Mopaq
