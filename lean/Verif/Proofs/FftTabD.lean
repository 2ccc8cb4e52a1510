import Verif.Proofs.FftInt
/-
  Generated. The factors of the transforms of 16384 points in `double`, in pieces of 128.
-/
namespace WD
namespace KInt
set_option maxRecDepth 10000

theorem tab16384_0 : run (-91031032132176134144) 474744047567887700852736 1329227898041089390698401679970836648 509752539568686538121643339355384 8798558659822614311920884431189271213621904 128 73786976294838206464 0 1329227995784915872903807060280344576 0 = some (73698096650403160064, 3620555322440035328, 1327626882450682015557247551709075668, 65222126404060817041060257472886668) := by decide +kernel
theorem tab16384_1 : run (-91031032132176134144) 474744047567887700852736 1329227898041089390698401679970836648 509752539568686538121643339355384 8798558659822614311920884431189271213621904 128 73698096650403160064 3620555322440035328 1327626882450682015557247551709075668 65222126404060817041060257472886668 = some (73431671835946442752, 7232388409985119232, 1322827399670243577784911761655670283, 130287126992830687481049581775058801) := by decide +kernel
theorem tab16384_2 : run (-91031032132176134144) 474744047567887700852736 1329227898041089390698401679970836648 509752539568686538121643339355384 8798558659822614311920884431189271213621904 128 73431671835946442752 7232388409985119232 1322827399670243577784911761655670283 130287126992830687481049581775058801 = some (72988343692182102016, 10826798040368142336, 1314841109818003677730263972812954724, 195038254480870296595901314985591071) := by decide +kernel
theorem tab16384_3 : run (-91031032132176134144) 474744047567887700852736 1329227898041089390698401679970836648 509752539568686538121643339355384 8798558659822614311920884431189271213621904 128 72988343692182102016 10826798040368142336 1314841109818003677730263972812954724 195038254480870296595901314985591071 = some (72369180235439431680, 14395124965956413440, 1303687252565732735913851516381636808, 259319517730532025535172787767079435) := by decide +kernel
theorem tab16384_4 : run (-91031032132176134144) 474744047567887700852736 1329227898041089390698401679970836648 509752539568686538121643339355384 8798558659822614311920884431189271213621904 128 72369180235439431680 14395124965956413440 1303687252565732735913851516381636808 259319517730532025535172787767079435 = some (71575673084718022656, 17928772774637676544, 1289392698532513984073458135789504135, 322976057548273754398939572098161422) := by decide +kernel
theorem tab16384_5 : run (-91031032132176134144) 474744047567887700852736 1329227898041089390698401679970836648 509752539568686538121643339355384 8798558659822614311920884431189271213621904 128 71575673084718022656 17928772774637676544 1289392698532513984073458135789504135 322976057548273754398939572098161422 = some (70609733868247007232, 21419228599329787904, 1271991884551068505397945340445045938, 385854519754020168573795117120173076) := by decide +kernel
theorem tab16384_6 : run (-91031032132176134144) 474744047567887700852736 1329227898041089390698401679970836648 509752539568686538121643339355384 8798558659822614311920884431189271213621904 128 70609733868247007232 21419228599329787904 1271991884551068505397945340445045938 385854519754020168573795117120173076 = some (69473689618205163520, 24858083626223259648, 1251526730706408899133128923695228351, 447803424624814799924264402992395692) := by decide +kernel
theorem tab16384_7 : run (-91031032132176134144) 474744047567887700852736 1329227898041089390698401679970836648 509752539568686538121643339355384 8798558659822614311920884431189271213621904 128 69473689618205163520 24858083626223259648 1251526730706408899133128923695228351 447803424624814799924264402992395692 = some (68170277164696518656, 28237053352350195712, 1228046539346682719437376742195206747, 508673531822740685630297997568867368) := by decide +kernel
theorem tab16384_8 : run (-91031032132176134144) 474744047567887700852736 1329227898041089390698401679970836648 509752539568686538121643339355384 8798558659822614311920884431189271213621904 128 68170277164696518656 28237053352350195712 1228046539346682719437376742195206747 508673531822740685630297997568867368 = some (66702636542487027712, 31547997543677562880, 1201607876309497412248128222553523545, 568318199927966319892958315014788064) := by decide +kernel
theorem tab16384_9 : run (-91031032132176134144) 474744047567887700852736 1329227898041089390698401679970836648 509752539568686538121643339355384 8798558659822614311920884431189271213621904 128 66702636542487027712 31547997543677562880 1201607876309497412248128222553523545 568318199927966319892958315014788064 = some (65074303426385788928, 34782939845643980800, 1172274434649862936731671497047771334, 626593739710770299435105923947889107) := by decide +kernel
theorem tab16384_10 : run (-91031032132176134144) 474744047567887700852736 1329227898041089390698401679970836648 509752539568686538121643339355384 8798558659822614311920884431189271213621904 128 65074303426385788928 34782939845643980800 1172274434649862936731671497047771334 626593739710770299435105923947889107 = some (63289200613494562816, 37934086998896525312, 1140116881198043393563626822666802802, 683359760291481412451239099146339289) := by decide +kernel
theorem tab16384_11 : run (-91031032132176134144) 474744047567887700852736 1329227898041089390698401679970836648 509752539568686538121643339355384 8798558659822614311920884431189271213621904 128 63289200613494562816 37934086998896525312 1140116881198043393563626822666802802 683359760291481412451239099146339289 = some (61351628572846170112, 40993847613935173632, 1105212686316973235412479860799095861, 738479507354404555302404965860896906) := by decide +kernel
theorem tab16384_12 : run (-91031032132176134144) 474744047567887700852736 1329227898041089390698401679970836648 509752539568686538121643339355384 8798558659822614311920884431189271213621904 128 61351628572846170112 40993847613935173632 1105212686316973235412479860799095861 738479507354404555302404965860896906 = some (59266255085197778944, 43954850459434803200, 1067645937269367355464326947265410416, 791820192600945505381704386202075740) := by decide +kernel
theorem tab16384_13 : run (-91031032132176134144) 474744047567887700852736 1329227898041089390698401679970836648 509752539568686538121643339355384 8798558659822614311920884431189271213621904 128 59266255085197778944 43954850459434803200 1067645937269367355464326947265410416 791820192600945505381704386202075740 = some (57038103997938319360, 46809962220187475968, 1027507135644140032896055286342771417, 843253313648253115886949368180610118) := by decide +kernel
theorem tab16384_14 : run (-91031032132176134144) 474744047567887700852736 1329227898041089390698401679970836648 509752539568686538121643339355384 8798558659822614311920884431189271213621904 128 57038103997938319360 46809962220187475968 1027507135644140032896055286342771417 843253313648253115886949368180610118 = some (54672543122199937024, 49552304681883222016, 984892979330150235407433324538530036, 892654963602715083641492216325192496) := by decide +kernel
theorem tab16384_15 : run (-91031032132176134144) 474744047567887700852736 1329227898041089390698401679970836648 509752539568686538121643339355384 8798558659822614311920884431189271213621904 128 54672543122199937024 49552304681883222016 984892979330150235407433324538530036 892654963602715083641492216325192496 = some (52175271301331042304, 52175271301331091456, 939906129562517623222788173740721720, 939906129562517623222788173740721078) := by decide +kernel
theorem tab16384_16 : run (-91031032132176134144) 474744047567887700852736 1329227898041089390698401679970836648 509752539568686538121643339355384 8798558659822614311920884431189271213621904 128 52175271301331042304 52175271301331091456 939906129562517623222788173740721720 939906129562517623222788173740721078 = some (49552304681883164672, 54672543122199986176, 892654963602715083641492216325192983, 984892979330150235407433324538529225) := by decide +kernel
theorem tab16384_17 : run (-91031032132176134144) 474744047567887700852736 1329227898041089390698401679970836648 509752539568686538121643339355384 8798558659822614311920884431189271213621904 128 49552304681883164672 54672543122199986176 892654963602715083641492216325192983 984892979330150235407433324538529225 = some (46809962220187418624, 57038103997938368512, 843253313648253115886949368180610454, 1027507135644140032896055286342770414) := by decide +kernel
theorem tab16384_18 : run (-91031032132176134144) 474744047567887700852736 1329227898041089390698401679970836648 509752539568686538121643339355384 8798558659822614311920884431189271213621904 128 46809962220187418624 57038103997938368512 843253313648253115886949368180610454 1027507135644140032896055286342770414 = some (43954850459434745856, 59266255085197828096, 791820192600945505381704386202075943, 1067645937269367355464326947265409216) := by decide +kernel
theorem tab16384_19 : run (-91031032132176134144) 474744047567887700852736 1329227898041089390698401679970836648 509752539568686538121643339355384 8798558659822614311920884431189271213621904 128 43954850459434745856 59266255085197828096 791820192600945505381704386202075943 1067645937269367355464326947265409216 = some (40993847613935116288, 61351628572846219264, 738479507354404555302404965860896984, 1105212686316973235412479860799094460) := by decide +kernel
theorem tab16384_20 : run (-91031032132176134144) 474744047567887700852736 1329227898041089390698401679970836648 509752539568686538121643339355384 8798558659822614311920884431189271213621904 128 40993847613935116288 61351628572846219264 738479507354404555302404965860896984 1105212686316973235412479860799094460 = some (37934086998896467968, 63289200613494611968, 683359760291481412451239099146339257, 1140116881198043393563626822666801184) := by decide +kernel
theorem tab16384_21 : run (-91031032132176134144) 474744047567887700852736 1329227898041089390698401679970836648 509752539568686538121643339355384 8798558659822614311920884431189271213621904 128 37934086998896467968 63289200613494611968 683359760291481412451239099146339257 1140116881198043393563626822666801184 = some (34782939845643927552, 65074303426385829888, 626593739710770299435105923947888993, 1172274434649862936731671497047769491) := by decide +kernel
theorem tab16384_22 : run (-91031032132176134144) 474744047567887700852736 1329227898041089390698401679970836648 509752539568686538121643339355384 8798558659822614311920884431189271213621904 128 34782939845643927552 65074303426385829888 626593739710770299435105923947888993 1172274434649862936731671497047769491 = some (31547997543677509632, 66702636542487068672, 568318199927966319892958315014787879, 1201607876309497412248128222553521478) := by decide +kernel
theorem tab16384_23 : run (-91031032132176134144) 474744047567887700852736 1329227898041089390698401679970836648 509752539568686538121643339355384 8798558659822614311920884431189271213621904 128 31547997543677509632 66702636542487068672 568318199927966319892958315014787879 1201607876309497412248128222553521478 = some (28237053352350138368, 68170277164696551424, 508673531822740685630297997568867129, 1228046539346682719437376742195204452) := by decide +kernel
theorem tab16384_24 : run (-91031032132176134144) 474744047567887700852736 1329227898041089390698401679970836648 509752539568686538121643339355384 8798558659822614311920884431189271213621904 128 28237053352350138368 68170277164696551424 508673531822740685630297997568867129 1228046539346682719437376742195204452 = some (24858083626223198208, 69473689618205196288, 447803424624814799924264402992395400, 1251526730706408899133128923695225821) := by decide +kernel
theorem tab16384_25 : run (-91031032132176134144) 474744047567887700852736 1329227898041089390698401679970836648 509752539568686538121643339355384 8798558659822614311920884431189271213621904 128 24858083626223198208 69473689618205196288 447803424624814799924264402992395400 1251526730706408899133128923695225821 = some (21419228599329726464, 70609733868247040000, 385854519754020168573795117120172760, 1271991884551068505397945340445043184) := by decide +kernel
theorem tab16384_26 : run (-91031032132176134144) 474744047567887700852736 1329227898041089390698401679970836648 509752539568686538121643339355384 8798558659822614311920884431189271213621904 128 21419228599329726464 70609733868247040000 385854519754020168573795117120172760 1271991884551068505397945340445043184 = some (17928772774637617152, 71575673084718047232, 322976057548273754398939572098161092, 1289392698532513984073458135789501145) := by decide +kernel
theorem tab16384_27 : run (-91031032132176134144) 474744047567887700852736 1329227898041089390698401679970836648 509752539568686538121643339355384 8798558659822614311920884431189271213621904 128 17928772774637617152 71575673084718047232 322976057548273754398939572098161092 1289392698532513984073458135789501145 = some (14395124965956354048, 72369180235439456256, 259319517730532025535172787767079105, 1303687252565732735913851516381633577) := by decide +kernel
theorem tab16384_28 : run (-91031032132176134144) 474744047567887700852736 1329227898041089390698401679970836648 509752539568686538121643339355384 8798558659822614311920884431189271213621904 128 14395124965956354048 72369180235439456256 259319517730532025535172787767079105 1303687252565732735913851516381633577 = some (10826798040368082944, 72988343692182126592, 195038254480870296595901314985590756, 1314841109818003677730263972812951249) := by decide +kernel
theorem tab16384_29 : run (-91031032132176134144) 474744047567887700852736 1329227898041089390698401679970836648 509752539568686538121643339355384 8798558659822614311920884431189271213621904 128 10826798040368082944 72988343692182126592 195038254480870296595901314985590756 1314841109818003677730263972812951249 = some (7232388409985059840, 73431671835946467328, 130287126992830687481049581775058515, 1322827399670243577784911761655666568) := by decide +kernel
theorem tab16384_30 : run (-91031032132176134144) 474744047567887700852736 1329227898041089390698401679970836648 509752539568686538121643339355384 8798558659822614311920884431189271213621904 128 7232388409985059840 73431671835946467328 130287126992830687481049581775058515 1322827399670243577784911761655666568 = some (3620555322439974912, 73698096650403184640, 65222126404060817041060257472886442, 1327626882450682015557247551709071710) := by decide +kernel
theorem tab16384_31 : run (-91031032132176134144) 474744047567887700852736 1329227898041089390698401679970836648 509752539568686538121643339355384 8798558659822614311920884431189271213621904 128 3620555322439974912 73698096650403184640 65222126404060817041060257472886442 1327626882450682015557247551709071710 = some (-61232, 73786976294838222848, -150, 1329227995784915872903807060280340378) := by decide +kernel
theorem cum16384_1 : run (-91031032132176134144) 474744047567887700852736 1329227898041089390698401679970836648 509752539568686538121643339355384 8798558659822614311920884431189271213621904 256 73786976294838206464 0 1329227995784915872903807060280344576 0 = some (73431671835946442752, 7232388409985119232, 1322827399670243577784911761655670283, 130287126992830687481049581775058801) := run_add (M := 128) (N := 128) (by norm_num) tab16384_0 tab16384_1
theorem cum16384_2 : run (-91031032132176134144) 474744047567887700852736 1329227898041089390698401679970836648 509752539568686538121643339355384 8798558659822614311920884431189271213621904 384 73786976294838206464 0 1329227995784915872903807060280344576 0 = some (72988343692182102016, 10826798040368142336, 1314841109818003677730263972812954724, 195038254480870296595901314985591071) := run_add (M := 256) (N := 128) (by norm_num) cum16384_1 tab16384_2
theorem cum16384_3 : run (-91031032132176134144) 474744047567887700852736 1329227898041089390698401679970836648 509752539568686538121643339355384 8798558659822614311920884431189271213621904 512 73786976294838206464 0 1329227995784915872903807060280344576 0 = some (72369180235439431680, 14395124965956413440, 1303687252565732735913851516381636808, 259319517730532025535172787767079435) := run_add (M := 384) (N := 128) (by norm_num) cum16384_2 tab16384_3
theorem cum16384_4 : run (-91031032132176134144) 474744047567887700852736 1329227898041089390698401679970836648 509752539568686538121643339355384 8798558659822614311920884431189271213621904 640 73786976294838206464 0 1329227995784915872903807060280344576 0 = some (71575673084718022656, 17928772774637676544, 1289392698532513984073458135789504135, 322976057548273754398939572098161422) := run_add (M := 512) (N := 128) (by norm_num) cum16384_3 tab16384_4
theorem cum16384_5 : run (-91031032132176134144) 474744047567887700852736 1329227898041089390698401679970836648 509752539568686538121643339355384 8798558659822614311920884431189271213621904 768 73786976294838206464 0 1329227995784915872903807060280344576 0 = some (70609733868247007232, 21419228599329787904, 1271991884551068505397945340445045938, 385854519754020168573795117120173076) := run_add (M := 640) (N := 128) (by norm_num) cum16384_4 tab16384_5
theorem cum16384_6 : run (-91031032132176134144) 474744047567887700852736 1329227898041089390698401679970836648 509752539568686538121643339355384 8798558659822614311920884431189271213621904 896 73786976294838206464 0 1329227995784915872903807060280344576 0 = some (69473689618205163520, 24858083626223259648, 1251526730706408899133128923695228351, 447803424624814799924264402992395692) := run_add (M := 768) (N := 128) (by norm_num) cum16384_5 tab16384_6
theorem cum16384_7 : run (-91031032132176134144) 474744047567887700852736 1329227898041089390698401679970836648 509752539568686538121643339355384 8798558659822614311920884431189271213621904 1024 73786976294838206464 0 1329227995784915872903807060280344576 0 = some (68170277164696518656, 28237053352350195712, 1228046539346682719437376742195206747, 508673531822740685630297997568867368) := run_add (M := 896) (N := 128) (by norm_num) cum16384_6 tab16384_7
theorem cum16384_8 : run (-91031032132176134144) 474744047567887700852736 1329227898041089390698401679970836648 509752539568686538121643339355384 8798558659822614311920884431189271213621904 1152 73786976294838206464 0 1329227995784915872903807060280344576 0 = some (66702636542487027712, 31547997543677562880, 1201607876309497412248128222553523545, 568318199927966319892958315014788064) := run_add (M := 1024) (N := 128) (by norm_num) cum16384_7 tab16384_8
theorem cum16384_9 : run (-91031032132176134144) 474744047567887700852736 1329227898041089390698401679970836648 509752539568686538121643339355384 8798558659822614311920884431189271213621904 1280 73786976294838206464 0 1329227995784915872903807060280344576 0 = some (65074303426385788928, 34782939845643980800, 1172274434649862936731671497047771334, 626593739710770299435105923947889107) := run_add (M := 1152) (N := 128) (by norm_num) cum16384_8 tab16384_9
theorem cum16384_10 : run (-91031032132176134144) 474744047567887700852736 1329227898041089390698401679970836648 509752539568686538121643339355384 8798558659822614311920884431189271213621904 1408 73786976294838206464 0 1329227995784915872903807060280344576 0 = some (63289200613494562816, 37934086998896525312, 1140116881198043393563626822666802802, 683359760291481412451239099146339289) := run_add (M := 1280) (N := 128) (by norm_num) cum16384_9 tab16384_10
theorem cum16384_11 : run (-91031032132176134144) 474744047567887700852736 1329227898041089390698401679970836648 509752539568686538121643339355384 8798558659822614311920884431189271213621904 1536 73786976294838206464 0 1329227995784915872903807060280344576 0 = some (61351628572846170112, 40993847613935173632, 1105212686316973235412479860799095861, 738479507354404555302404965860896906) := run_add (M := 1408) (N := 128) (by norm_num) cum16384_10 tab16384_11
theorem cum16384_12 : run (-91031032132176134144) 474744047567887700852736 1329227898041089390698401679970836648 509752539568686538121643339355384 8798558659822614311920884431189271213621904 1664 73786976294838206464 0 1329227995784915872903807060280344576 0 = some (59266255085197778944, 43954850459434803200, 1067645937269367355464326947265410416, 791820192600945505381704386202075740) := run_add (M := 1536) (N := 128) (by norm_num) cum16384_11 tab16384_12
theorem cum16384_13 : run (-91031032132176134144) 474744047567887700852736 1329227898041089390698401679970836648 509752539568686538121643339355384 8798558659822614311920884431189271213621904 1792 73786976294838206464 0 1329227995784915872903807060280344576 0 = some (57038103997938319360, 46809962220187475968, 1027507135644140032896055286342771417, 843253313648253115886949368180610118) := run_add (M := 1664) (N := 128) (by norm_num) cum16384_12 tab16384_13
theorem cum16384_14 : run (-91031032132176134144) 474744047567887700852736 1329227898041089390698401679970836648 509752539568686538121643339355384 8798558659822614311920884431189271213621904 1920 73786976294838206464 0 1329227995784915872903807060280344576 0 = some (54672543122199937024, 49552304681883222016, 984892979330150235407433324538530036, 892654963602715083641492216325192496) := run_add (M := 1792) (N := 128) (by norm_num) cum16384_13 tab16384_14
theorem cum16384_15 : run (-91031032132176134144) 474744047567887700852736 1329227898041089390698401679970836648 509752539568686538121643339355384 8798558659822614311920884431189271213621904 2048 73786976294838206464 0 1329227995784915872903807060280344576 0 = some (52175271301331042304, 52175271301331091456, 939906129562517623222788173740721720, 939906129562517623222788173740721078) := run_add (M := 1920) (N := 128) (by norm_num) cum16384_14 tab16384_15
theorem cum16384_16 : run (-91031032132176134144) 474744047567887700852736 1329227898041089390698401679970836648 509752539568686538121643339355384 8798558659822614311920884431189271213621904 2176 73786976294838206464 0 1329227995784915872903807060280344576 0 = some (49552304681883164672, 54672543122199986176, 892654963602715083641492216325192983, 984892979330150235407433324538529225) := run_add (M := 2048) (N := 128) (by norm_num) cum16384_15 tab16384_16
theorem cum16384_17 : run (-91031032132176134144) 474744047567887700852736 1329227898041089390698401679970836648 509752539568686538121643339355384 8798558659822614311920884431189271213621904 2304 73786976294838206464 0 1329227995784915872903807060280344576 0 = some (46809962220187418624, 57038103997938368512, 843253313648253115886949368180610454, 1027507135644140032896055286342770414) := run_add (M := 2176) (N := 128) (by norm_num) cum16384_16 tab16384_17
theorem cum16384_18 : run (-91031032132176134144) 474744047567887700852736 1329227898041089390698401679970836648 509752539568686538121643339355384 8798558659822614311920884431189271213621904 2432 73786976294838206464 0 1329227995784915872903807060280344576 0 = some (43954850459434745856, 59266255085197828096, 791820192600945505381704386202075943, 1067645937269367355464326947265409216) := run_add (M := 2304) (N := 128) (by norm_num) cum16384_17 tab16384_18
theorem cum16384_19 : run (-91031032132176134144) 474744047567887700852736 1329227898041089390698401679970836648 509752539568686538121643339355384 8798558659822614311920884431189271213621904 2560 73786976294838206464 0 1329227995784915872903807060280344576 0 = some (40993847613935116288, 61351628572846219264, 738479507354404555302404965860896984, 1105212686316973235412479860799094460) := run_add (M := 2432) (N := 128) (by norm_num) cum16384_18 tab16384_19
theorem cum16384_20 : run (-91031032132176134144) 474744047567887700852736 1329227898041089390698401679970836648 509752539568686538121643339355384 8798558659822614311920884431189271213621904 2688 73786976294838206464 0 1329227995784915872903807060280344576 0 = some (37934086998896467968, 63289200613494611968, 683359760291481412451239099146339257, 1140116881198043393563626822666801184) := run_add (M := 2560) (N := 128) (by norm_num) cum16384_19 tab16384_20
theorem cum16384_21 : run (-91031032132176134144) 474744047567887700852736 1329227898041089390698401679970836648 509752539568686538121643339355384 8798558659822614311920884431189271213621904 2816 73786976294838206464 0 1329227995784915872903807060280344576 0 = some (34782939845643927552, 65074303426385829888, 626593739710770299435105923947888993, 1172274434649862936731671497047769491) := run_add (M := 2688) (N := 128) (by norm_num) cum16384_20 tab16384_21
theorem cum16384_22 : run (-91031032132176134144) 474744047567887700852736 1329227898041089390698401679970836648 509752539568686538121643339355384 8798558659822614311920884431189271213621904 2944 73786976294838206464 0 1329227995784915872903807060280344576 0 = some (31547997543677509632, 66702636542487068672, 568318199927966319892958315014787879, 1201607876309497412248128222553521478) := run_add (M := 2816) (N := 128) (by norm_num) cum16384_21 tab16384_22
theorem cum16384_23 : run (-91031032132176134144) 474744047567887700852736 1329227898041089390698401679970836648 509752539568686538121643339355384 8798558659822614311920884431189271213621904 3072 73786976294838206464 0 1329227995784915872903807060280344576 0 = some (28237053352350138368, 68170277164696551424, 508673531822740685630297997568867129, 1228046539346682719437376742195204452) := run_add (M := 2944) (N := 128) (by norm_num) cum16384_22 tab16384_23
theorem cum16384_24 : run (-91031032132176134144) 474744047567887700852736 1329227898041089390698401679970836648 509752539568686538121643339355384 8798558659822614311920884431189271213621904 3200 73786976294838206464 0 1329227995784915872903807060280344576 0 = some (24858083626223198208, 69473689618205196288, 447803424624814799924264402992395400, 1251526730706408899133128923695225821) := run_add (M := 3072) (N := 128) (by norm_num) cum16384_23 tab16384_24
theorem cum16384_25 : run (-91031032132176134144) 474744047567887700852736 1329227898041089390698401679970836648 509752539568686538121643339355384 8798558659822614311920884431189271213621904 3328 73786976294838206464 0 1329227995784915872903807060280344576 0 = some (21419228599329726464, 70609733868247040000, 385854519754020168573795117120172760, 1271991884551068505397945340445043184) := run_add (M := 3200) (N := 128) (by norm_num) cum16384_24 tab16384_25
theorem cum16384_26 : run (-91031032132176134144) 474744047567887700852736 1329227898041089390698401679970836648 509752539568686538121643339355384 8798558659822614311920884431189271213621904 3456 73786976294838206464 0 1329227995784915872903807060280344576 0 = some (17928772774637617152, 71575673084718047232, 322976057548273754398939572098161092, 1289392698532513984073458135789501145) := run_add (M := 3328) (N := 128) (by norm_num) cum16384_25 tab16384_26
theorem cum16384_27 : run (-91031032132176134144) 474744047567887700852736 1329227898041089390698401679970836648 509752539568686538121643339355384 8798558659822614311920884431189271213621904 3584 73786976294838206464 0 1329227995784915872903807060280344576 0 = some (14395124965956354048, 72369180235439456256, 259319517730532025535172787767079105, 1303687252565732735913851516381633577) := run_add (M := 3456) (N := 128) (by norm_num) cum16384_26 tab16384_27
theorem cum16384_28 : run (-91031032132176134144) 474744047567887700852736 1329227898041089390698401679970836648 509752539568686538121643339355384 8798558659822614311920884431189271213621904 3712 73786976294838206464 0 1329227995784915872903807060280344576 0 = some (10826798040368082944, 72988343692182126592, 195038254480870296595901314985590756, 1314841109818003677730263972812951249) := run_add (M := 3584) (N := 128) (by norm_num) cum16384_27 tab16384_28
theorem cum16384_29 : run (-91031032132176134144) 474744047567887700852736 1329227898041089390698401679970836648 509752539568686538121643339355384 8798558659822614311920884431189271213621904 3840 73786976294838206464 0 1329227995784915872903807060280344576 0 = some (7232388409985059840, 73431671835946467328, 130287126992830687481049581775058515, 1322827399670243577784911761655666568) := run_add (M := 3712) (N := 128) (by norm_num) cum16384_28 tab16384_29
theorem cum16384_30 : run (-91031032132176134144) 474744047567887700852736 1329227898041089390698401679970836648 509752539568686538121643339355384 8798558659822614311920884431189271213621904 3968 73786976294838206464 0 1329227995784915872903807060280344576 0 = some (3620555322439974912, 73698096650403184640, 65222126404060817041060257472886442, 1327626882450682015557247551709071710) := run_add (M := 3840) (N := 128) (by norm_num) cum16384_29 tab16384_30
theorem tab16384 : run (-91031032132176134144) 474744047567887700852736 1329227898041089390698401679970836648 509752539568686538121643339355384 8798558659822614311920884431189271213621904 4096 73786976294838206464 0 1329227995784915872903807060280344576 0 = some (-61232, 73786976294838222848, -150, 1329227995784915872903807060280340378) := run_add (M := 3968) (N := 128) (by norm_num) cum16384_30 tab16384_31

end KInt
end WD
