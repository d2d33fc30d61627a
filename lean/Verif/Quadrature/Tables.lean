/-
The Gauss-Legendre tables of `src/Quadrature.cc:49-78`, transcribed entry by entry
(by a script from the text of that file).  Entries are written in units of 10^-16,
which is the last decimal printed in the source; the C++ constants are the nearest
doubles to these decimals, a difference below 2^-53 that is not modelled.
-/

namespace Verif.Quadrature

/-- `s_n2`, `src/Quadrature.cc:49`. -/
def s_n2 : List Int :=
  [-5773502691896257, 5773502691896257]

/-- `s_w2`, `src/Quadrature.cc:50`. -/
def s_w2 : List Int :=
  [10000000000000000, 10000000000000000]

/-- `s_n4`, `src/Quadrature.cc:51`. -/
def s_n4 : List Int :=
  [-8611363115940526, -3399810435848563, 3399810435848563, 8611363115940526]

/-- `s_w4`, `src/Quadrature.cc:52`. -/
def s_w4 : List Int :=
  [3478548451374540, 6521451548625462, 6521451548625462, 3478548451374540]

/-- `s_n6`, `src/Quadrature.cc:53`. -/
def s_n6 : List Int :=
  [-9324695142031521, -6612093864662645, -2386191860831969, 2386191860831969,
   6612093864662645, 9324695142031521]

/-- `s_w6`, `src/Quadrature.cc:54`. -/
def s_w6 : List Int :=
  [1713244923791694, 3607615730481388, 4679139345726918, 4679139345726918,
   3607615730481388, 1713244923791694]

/-- `s_n8`, `src/Quadrature.cc:55`. -/
def s_n8 : List Int :=
  [-9602898564975362, -7966664774136267, -5255324099163290, -1834346424956498,
   1834346424956498, 5255324099163290, 7966664774136267, 9602898564975362]

/-- `s_w8`, `src/Quadrature.cc:56`. -/
def s_w8 : List Int :=
  [1012285362903753, 2223810344533751, 3137066458778874, 3626837833783620,
   3626837833783620, 3137066458778874, 2223810344533751, 1012285362903753]

/-- `s_n10`, `src/Quadrature.cc:57`. -/
def s_n10 : List Int :=
  [-9739065285171717, -8650633666889845, -6794095682990244, -4333953941292472,
   -1488743389816312, 1488743389816312, 4333953941292472, 6794095682990244,
   8650633666889845, 9739065285171717]

/-- `s_w10`, `src/Quadrature.cc:58`. -/
def s_w10 : List Int :=
  [666713443086850, 1494513491505808, 2190863625159831, 2692667193099972,
   2955242247147539, 2955242247147539, 2692667193099972, 2190863625159831,
   1494513491505808, 666713443086850]

/-- `s_n12`, `src/Quadrature.cc:59`. -/
def s_n12 : List Int :=
  [-9815606342467192, -9041172563704748, -7699026741943047, -5873179542866174,
   -3678314989981802, -1252334085114689, 1252334085114689, 3678314989981802,
   5873179542866174, 7699026741943047, 9041172563704748, 9815606342467192]

/-- `s_w12`, `src/Quadrature.cc:60`. -/
def s_w12 : List Int :=
  [471753363865124, 1069393259953184, 1600783285433459, 2031674267230659,
   2334925365383547, 2491470458134026, 2491470458134026, 2334925365383547,
   2031674267230659, 1600783285433459, 1069393259953184, 471753363865124]

/-- `s_n14`, `src/Quadrature.cc:61`. -/
def s_n14 : List Int :=
  [-9862838086968124, -9284348836635735, -8272013150697650, -6872929048116855,
   -5152486363581541, -3191123689278897, -1080549487073437, 1080549487073437,
   3191123689278897, 5152486363581541, 6872929048116855, 8272013150697650,
   9284348836635735, 9862838086968124]

/-- `s_w14`, `src/Quadrature.cc:62`. -/
def s_w14 : List Int :=
  [351194603317524, 801580871597607, 1215185706879027, 1572031671581933,
   1855383974779377, 2051984637212955, 2152638534631576, 2152638534631576,
   2051984637212955, 1855383974779377, 1572031671581933, 1215185706879027,
   801580871597607, 351194603317524]

/-- `s_n16`, `src/Quadrature.cc:63`. -/
def s_n16 : List Int :=
  [-9894009349916499, -9445750230732326, -8656312023878318, -7554044083550030,
   -6178762444026438, -4580167776572274, -2816035507792589, -950125098376375,
   950125098376375, 2816035507792589, 4580167776572274, 6178762444026438,
   7554044083550030, 8656312023878318, 9445750230732326, 9894009349916499]

/-- `s_w16`, `src/Quadrature.cc:64`. -/
def s_w16 : List Int :=
  [271524594117528, 622535239386485, 951585116824923, 1246289712555341,
   1495959888165768, 1691565193950028, 1826034150449238, 1894506104550687,
   1894506104550687, 1826034150449238, 1691565193950028, 1495959888165768,
   1246289712555341, 951585116824923, 622535239386485, 271524594117528]

/-- `s_n18`, `src/Quadrature.cc:65`. -/
def s_n18 : List Int :=
  [-9915651684209309, -9558239495713977, -8926024664975558, -8037049589725231,
   -6916870430603532, -5597708310739475, -4117511614628426, -2518862256915055,
   -847750130417353, 847750130417353, 2518862256915055, 4117511614628426,
   5597708310739475, 6916870430603532, 8037049589725231, 8926024664975558,
   9558239495713977, 9915651684209309]

/-- `s_w18`, `src/Quadrature.cc:66`. -/
def s_w18 : List Int :=
  [216160135264830, 497145488949704, 764257302548894, 1009420441062870,
   1225552067114782, 1406429146706505, 1546846751262652, 1642764837458328,
   1691423829631436, 1691423829631436, 1642764837458328, 1546846751262652,
   1406429146706505, 1225552067114782, 1009420441062870, 764257302548894,
   497145488949704, 216160135264830]

/-- `s_n20`, `src/Quadrature.cc:67`. -/
def s_n20 : List Int :=
  [-9931285991850949, -9639719272779138, -9122344282513259, -8391169718222188,
   -7463319064601508, -6360536807265150, -5108670019508271, -3737060887154195,
   -2277858511416451, -765265211334973, 765265211334973, 2277858511416451,
   3737060887154195, 5108670019508271, 6360536807265150, 7463319064601508,
   8391169718222188, 9122344282513259, 9639719272779138, 9931285991850949]

/-- `s_w20`, `src/Quadrature.cc:68`. -/
def s_w20 : List Int :=
  [176140071391515, 406014298003864, 626720483341095, 832767415767052,
   1019301198172402, 1181945319615184, 1316886384491767, 1420961093183822,
   1491729864726040, 1527533871307260, 1527533871307260, 1491729864726040,
   1420961093183822, 1316886384491767, 1181945319615184, 1019301198172402,
   832767415767052, 626720483341095, 406014298003864, 176140071391515]

/-- `s_n22`, `src/Quadrature.cc:69`. -/
def s_n22 : List Int :=
  [-9942945854823994, -9700604978354287, -9269567721871740, -8658125777203002,
   -7878168059792081, -6944872631866827, -5876404035069116, -4693558379867570,
   -3419358208920842, -2078604266882213, -697392733197222, 697392733197222,
   2078604266882213, 3419358208920842, 4693558379867570, 5876404035069116,
   6944872631866827, 7878168059792081, 8658125777203002, 9269567721871740,
   9700604978354287, 9942945854823994]

/-- `s_w22`, `src/Quadrature.cc:70`. -/
def s_w22 : List Int :=
  [146279952982719, 337749015848153, 522933351526825, 697964684245201,
   859416062170677, 1004141444428810, 1129322960805393, 1232523768105125,
   1311735047870624, 1365414983460153, 1392518728556321, 1392518728556321,
   1365414983460153, 1311735047870624, 1232523768105125, 1129322960805393,
   1004141444428810, 859416062170677, 697964684245201, 522933351526825,
   337749015848153, 146279952982719]

/-- `s_n24`, `src/Quadrature.cc:71`. -/
def s_n24 : List Int :=
  [-9951872199970214, -9747285559713095, -9382745520027328, -8864155270044011,
   -8200019859739029, -7401241915785544, -6480936519369755, -5454214713888396,
   -4337935076260451, -3150426796961634, -1911188674736163, -640568928626056,
   640568928626056, 1911188674736163, 3150426796961634, 4337935076260451,
   5454214713888396, 6480936519369755, 7401241915785544, 8200019859739029,
   8864155270044011, 9382745520027328, 9747285559713095, 9951872199970214]

/-- `s_w24`, `src/Quadrature.cc:72`. -/
def s_w24 : List Int :=
  [123412297999860, 285313886289335, 442774388174196, 592985849154367,
   733464814110802, 861901615319536, 976186521041139, 1074442701159658,
   1155056680537258, 1216704729278036, 1258374563468286, 1279381953467525,
   1279381953467525, 1258374563468286, 1216704729278036, 1155056680537258,
   1074442701159658, 976186521041139, 861901615319536, 733464814110802,
   592985849154367, 442774388174196, 285313886289335, 123412297999860]

/-- `s_n26`, `src/Quadrature.cc:73`. -/
def s_n26 : List Int :=
  [-9958857011456169, -9783854459564709, -9471590666617142, -9026378619843071,
   -8454459427884981, -7763859488206788, -6964272604199573, -6066922930176181,
   -5084407148245057, -4030517551234863, -2920048394859569, -1768588203568902,
   -592300934293132, 592300934293132, 1768588203568902, 2920048394859569,
   4030517551234863, 5084407148245057, 6066922930176181, 6964272604199573,
   7763859488206788, 8454459427884981, 9026378619843071, 9471590666617142,
   9783854459564709, 9958857011456169]

/-- `s_w26`, `src/Quadrature.cc:74`. -/
def s_w26 : List Int :=
  [105513726173399, 244178510926323, 379623832943637, 509758252971484,
   632740463295749, 746841497656602, 850458943134853, 942138003559144,
   1020591610944256, 1084718405285767, 1133618165463197, 1166604434852967,
   1183214152792624, 1183214152792624, 1166604434852967, 1133618165463197,
   1084718405285767, 1020591610944256, 942138003559144, 850458943134853,
   746841497656602, 632740463295749, 509758252971484, 379623832943637,
   244178510926323, 105513726173399]

/-- `s_n28`, `src/Quadrature.cc:75`. -/
def s_n28 : List Int :=
  [-9964424975739544, -9813031653708728, -9542592806289382, -9156330263921321,
   -8658925225743951, -8056413709171791, -7356108780136318, -6566510940388650,
   -5697204718114017, -4758742249551183, -3762515160890787, -2720616276351780,
   -1645692821333808, -550792898840343, 550792898840343, 1645692821333808,
   2720616276351780, 3762515160890787, 4758742249551183, 5697204718114017,
   6566510940388650, 7356108780136318, 8056413709171791, 8658925225743951,
   9156330263921321, 9542592806289382, 9813031653708728, 9964424975739544]

/-- `s_w28`, `src/Quadrature.cc:76`. -/
def s_w28 : List Int :=
  [91242825930933, 211321125927716, 329014277823041, 442729347590042,
   551073456757166, 652729239669995, 746462142345688, 831134172289013,
   905717443930329, 969306579979302, 1021129675780610, 1060557659228466,
   1087111922582944, 1100470130164755, 1100470130164755, 1087111922582944,
   1060557659228466, 1021129675780610, 969306579979302, 905717443930329,
   831134172289013, 746462142345688, 652729239669995, 551073456757166,
   442729347590042, 329014277823041, 211321125927716, 91242825930933]

/-- `s_n30`, `src/Quadrature.cc:77`. -/
def s_n30 : List Int :=
  [-9968934840746495, -9836681232797472, -9600218649683075, -9262000474292743,
   -8825605357920527, -8295657623827684, -7677774321048262, -6978504947933158,
   -6205261829892429, -5366241481420199, -4470337695380892, -3527047255308781,
   -2546369261678899, -1538699136085835, -514718425553177, 514718425553177,
   1538699136085835, 2546369261678899, 3527047255308781, 4470337695380892,
   5366241481420199, 6205261829892429, 6978504947933158, 7677774321048262,
   8295657623827684, 8825605357920527, 9262000474292743, 9600218649683075,
   9836681232797472, 9968934840746495]

/-- `s_w30`, `src/Quadrature.cc:78`. -/
def s_w30 : List Int :=
  [79681924961701, 184664683110921, 287847078833228, 387991925696264,
   484026728305939, 574931562176186, 659742298821804, 737559747377048,
   807558952294198, 868997872010827, 921225222377858, 963687371746439,
   995934205867949, 1017623897484052, 1028526528935585, 1028526528935585,
   1017623897484052, 995934205867949, 963687371746439, 921225222377858,
   868997872010827, 807558952294198, 737559747377048, 659742298821804,
   574931562176186, 484026728305939, 387991925696264, 287847078833228,
   184664683110921, 79681924961701]

end Verif.Quadrature
