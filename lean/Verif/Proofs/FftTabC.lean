import Verif.Proofs.FftInt
/-
  Generated. The factors of the transforms of 8192 points in `double`, in pieces of 128.
-/
namespace WD
namespace KInt
set_option maxRecDepth 10000

theorem tab8192_0 : run (-364124115140901273600) 949488025315849929752576 1329227604809624319126415241529909409 1019505004168798934764675839253091 8798558659822614311920884431189271213621904 128 73786976294838206464 0 1329227995784915872903807060280344576 0 = some (73431671835946450944, 7232388409985116160, 1322827399670243577784911761655670419, 130287126992830687481049581775058861) := by decide +kernel
theorem tab8192_1 : run (-364124115140901273600) 949488025315849929752576 1329227604809624319126415241529909409 1019505004168798934764675839253091 8798558659822614311920884431189271213621904 128 73431671835946450944 7232388409985116160 1322827399670243577784911761655670419 130287126992830687481049581775058861 = some (72369180235439398912, 14395124965956399104, 1303687252565732735913851516381637069, 259319517730532025535172787767079589) := by decide +kernel
theorem tab8192_2 : run (-364124115140901273600) 949488025315849929752576 1329227604809624319126415241529909409 1019505004168798934764675839253091 8798558659822614311920884431189271213621904 128 72369180235439398912 14395124965956399104 1303687252565732735913851516381637069 259319517730532025535172787767079589 = some (70609733868246990848, 21419228599329746944, 1271991884551068505397945340445046320, 385854519754020168573795117120173336) := by decide +kernel
theorem tab8192_3 : run (-364124115140901273600) 949488025315849929752576 1329227604809624319126415241529909409 1019505004168798934764675839253091 8798558659822614311920884431189271213621904 128 70609733868246990848 21419228599329746944 1271991884551068505397945340445046320 385854519754020168573795117120173336 = some (68170277164696543232, 28237053352350187520, 1228046539346682719437376742195207226, 508673531822740685630297997568867752) := by decide +kernel
theorem tab8192_4 : run (-364124115140901273600) 949488025315849929752576 1329227604809624319126415241529909409 1019505004168798934764675839253091 8798558659822614311920884431189271213621904 128 68170277164696543232 28237053352350187520 1228046539346682719437376742195207226 508673531822740685630297997568867752 = some (65074303426385887232, 34782939845643980800, 1172274434649862936731671497047771897, 626593739710770299435105923947889626) := by decide +kernel
theorem tab8192_5 : run (-364124115140901273600) 949488025315849929752576 1329227604809624319126415241529909409 1019505004168798934764675839253091 8798558659822614311920884431189271213621904 128 65074303426385887232 34782939845643980800 1172274434649862936731671497047771897 626593739710770299435105923947889626 = some (61351628572846309376, 40993847613935198208, 1105212686316973235412479860799096501, 738479507354404555302404965860897583) := by decide +kernel
theorem tab8192_6 : run (-364124115140901273600) 949488025315849929752576 1329227604809624319126415241529909409 1019505004168798934764675839253091 8798558659822614311920884431189271213621904 128 61351628572846309376 40993847613935198208 1105212686316973235412479860799096501 738479507354404555302404965860897583 = some (57038103997938475008, 46809962220187574272, 1027507135644140032896055286342772109, 843253313648253115886949368180610969) := by decide +kernel
theorem tab8192_7 : run (-364124115140901273600) 949488025315849929752576 1329227604809624319126415241529909409 1019505004168798934764675839253091 8798558659822614311920884431189271213621904 128 57038103997938475008 46809962220187574272 1027507135644140032896055286342772109 843253313648253115886949368180610969 = some (52175271301331206144, 52175271301331197952, 939906129562517623222788173740722443, 939906129562517623222788173740722113) := by decide +kernel
theorem tab8192_8 : run (-364124115140901273600) 949488025315849929752576 1329227604809624319126415241529909409 1019505004168798934764675839253091 8798558659822614311920884431189271213621904 128 52175271301331206144 52175271301331197952 939906129562517623222788173740722443 939906129562517623222788173740722113 = some (46809962220187582464, 57038103997938466816, 843253313648253115886949368180611176, 1027507135644140032896055286342771642) := by decide +kernel
theorem tab8192_9 : run (-364124115140901273600) 949488025315849929752576 1329227604809624319126415241529909409 1019505004168798934764675839253091 8798558659822614311920884431189271213621904 128 46809962220187582464 57038103997938466816 843253313648253115886949368180611176 1027507135644140032896055286342771642 = some (40993847613935206400, 61351628572846301184, 738479507354404555302404965860897689, 1105212686316973235412479860799095885) := by decide +kernel
theorem tab8192_10 : run (-364124115140901273600) 949488025315849929752576 1329227604809624319126415241529909409 1019505004168798934764675839253091 8798558659822614311920884431189271213621904 128 40993847613935206400 61351628572846301184 738479507354404555302404965860897689 1105212686316973235412479860799095885 = some (34782939845643988992, 65074303426385887232, 626593739710770299435105923947889652, 1172274434649862936731671497047771114) := by decide +kernel
theorem tab8192_11 : run (-364124115140901273600) 949488025315849929752576 1329227604809624319126415241529909409 1019505004168798934764675839253091 8798558659822614311920884431189271213621904 128 34782939845643988992 65074303426385887232 626593739710770299435105923947889652 1172274434649862936731671497047771114 = some (28237053352350195712, 68170277164696543232, 508673531822740685630297997568867712, 1228046539346682719437376742195206261) := by decide +kernel
theorem tab8192_12 : run (-364124115140901273600) 949488025315849929752576 1329227604809624319126415241529909409 1019505004168798934764675839253091 8798558659822614311920884431189271213621904 128 28237053352350195712 68170277164696543232 508673531822740685630297997568867712 1228046539346682719437376742195206261 = some (21419228599329755136, 70609733868246990848, 385854519754020168573795117120173244, 1271991884551068505397945340445045172) := by decide +kernel
theorem tab8192_13 : run (-364124115140901273600) 949488025315849929752576 1329227604809624319126415241529909409 1019505004168798934764675839253091 8798558659822614311920884431189271213621904 128 21419228599329755136 70609733868246990848 385854519754020168573795117120173244 1271991884551068505397945340445045172 = some (14395124965956405248, 72369180235439398912, 259319517730532025535172787767079485, 1303687252565732735913851516381635740) := by decide +kernel
theorem tab8192_14 : run (-364124115140901273600) 949488025315849929752576 1329227604809624319126415241529909409 1019505004168798934764675839253091 8798558659822614311920884431189271213621904 128 14395124965956405248 72369180235439398912 259319517730532025535172787767079485 1303687252565732735913851516381635740 = some (7232388409985122304, 73431671835946450944, 130287126992830687481049581775058760, 1322827399670243577784911761655668903) := by decide +kernel
theorem tab8192_15 : run (-364124115140901273600) 949488025315849929752576 1329227604809624319126415241529909409 1019505004168798934764675839253091 8798558659822614311920884431189271213621904 128 7232388409985122304 73431671835946450944 130287126992830687481049581775058760 1322827399670243577784911761655668903 = some (6528, 73786976294838206464, -69, 1329227995784915872903807060280342871) := by decide +kernel
theorem tab8192_16 : run (-364124115140901273600) 949488025315849929752576 1329227604809624319126415241529909409 1019505004168798934764675839253091 8798558659822614311920884431189271213621904 128 6528 73786976294838206464 (-69) 1329227995784915872903807060280342871 = some (-7232388409985108992, 73431671835946450944, -130287126992830687481049581775058889, 1322827399670243577784911761655668706) := by decide +kernel
theorem tab8192_17 : run (-364124115140901273600) 949488025315849929752576 1329227604809624319126415241529909409 1019505004168798934764675839253091 8798558659822614311920884431189271213621904 128 (-7232388409985108992) 73431671835946450944 (-130287126992830687481049581775058889) 1322827399670243577784911761655668706 = some (-14395124965956392960, 72369180235439398912, -259319517730532025535172787767079581, 1303687252565732735913851516381635354) := by decide +kernel
theorem tab8192_18 : run (-364124115140901273600) 949488025315849929752576 1329227604809624319126415241529909409 1019505004168798934764675839253091 8798558659822614311920884431189271213621904 128 (-14395124965956392960) 72369180235439398912 (-259319517730532025535172787767079581) 1303687252565732735913851516381635354 = some (-21419228599329746944, 70609733868246990848, -385854519754020168573795117120173286, 1271991884551068505397945340445044606) := by decide +kernel
theorem tab8192_19 : run (-364124115140901273600) 949488025315849929752576 1329227604809624319126415241529909409 1019505004168798934764675839253091 8798558659822614311920884431189271213621904 128 (-21419228599329746944) 70609733868246990848 (-385854519754020168573795117120173286) 1271991884551068505397945340445044606 = some (-28237053352350187520, 68170277164696543232, -508673531822740685630297997568867665, 1228046539346682719437376742195205520) := by decide +kernel
theorem tab8192_20 : run (-364124115140901273600) 949488025315849929752576 1329227604809624319126415241529909409 1019505004168798934764675839253091 8798558659822614311920884431189271213621904 128 (-28237053352350187520) 68170277164696543232 (-508673531822740685630297997568867665) 1228046539346682719437376742195205520 = some (-34782939845643980800, 65074303426385887232, -626593739710770299435105923947889505, 1172274434649862936731671497047770204) := by decide +kernel
theorem tab8192_21 : run (-364124115140901273600) 949488025315849929752576 1329227604809624319126415241529909409 1019505004168798934764675839253091 8798558659822614311920884431189271213621904 128 (-34782939845643980800) 65074303426385887232 (-626593739710770299435105923947889505) 1172274434649862936731671497047770204 = some (-40993847613935198208, 61351628572846309376, -738479507354404555302404965860897420, 1105212686316973235412479860799094825) := by decide +kernel
theorem tab8192_22 : run (-364124115140901273600) 949488025315849929752576 1329227604809624319126415241529909409 1019505004168798934764675839253091 8798558659822614311920884431189271213621904 128 (-40993847613935198208) 61351628572846309376 (-738479507354404555302404965860897420) 1105212686316973235412479860799094825 = some (-46809962220187574272, 57038103997938475008, -843253313648253115886949368180610767, 1027507135644140032896055286342770446) := by decide +kernel
theorem tab8192_23 : run (-364124115140901273600) 949488025315849929752576 1329227604809624319126415241529909409 1019505004168798934764675839253091 8798558659822614311920884431189271213621904 128 (-46809962220187574272) 57038103997938475008 (-843253313648253115886949368180610767) 1027507135644140032896055286342770446 = some (-52175271301331197952, 52175271301331206144, -939906129562517623222788173740721877, 939906129562517623222788173740720800) := by decide +kernel
theorem tab8192_24 : run (-364124115140901273600) 949488025315849929752576 1329227604809624319126415241529909409 1019505004168798934764675839253091 8798558659822614311920884431189271213621904 128 (-52175271301331197952) 52175271301331206144 (-939906129562517623222788173740721877) 939906129562517623222788173740720800 = some (-57038103997938466816, 46809962220187582464, -1027507135644140032896055286342771380, 843253313648253115886949368180609559) := by decide +kernel
theorem tab8192_25 : run (-364124115140901273600) 949488025315849929752576 1329227604809624319126415241529909409 1019505004168798934764675839253091 8798558659822614311920884431189271213621904 128 (-57038103997938466816) 46809962220187582464 (-1027507135644140032896055286342771380) 843253313648253115886949368180609559 = some (-61351628572846301184, 40993847613935206400, -1105212686316973235412479860799095586, 738479507354404555302404965860896100) := by decide +kernel
theorem tab8192_26 : run (-364124115140901273600) 949488025315849929752576 1329227604809624319126415241529909409 1019505004168798934764675839253091 8798558659822614311920884431189271213621904 128 (-61351628572846301184) 40993847613935206400 (-1105212686316973235412479860799095586) 738479507354404555302404965860896100 = some (-65074303426385887232, 34782939845643988992, -1172274434649862936731671497047770791, 626593739710770299435105923947888090) := by decide +kernel
theorem tab8192_27 : run (-364124115140901273600) 949488025315849929752576 1329227604809624319126415241529909409 1019505004168798934764675839253091 8798558659822614311920884431189271213621904 128 (-65074303426385887232) 34782939845643988992 (-1172274434649862936731671497047770791) 626593739710770299435105923947888090 = some (-68170277164696543232, 28237053352350195712, -1228046539346682719437376742195205918, 508673531822740685630297997568866187) := by decide +kernel
theorem tab8192_28 : run (-364124115140901273600) 949488025315849929752576 1329227604809624319126415241529909409 1019505004168798934764675839253091 8798558659822614311920884431189271213621904 128 (-68170277164696543232) 28237053352350195712 (-1228046539346682719437376742195205918) 508673531822740685630297997568866187 = some (-70609733868246990848, 21419228599329755136, -1271991884551068505397945340445044811, 385854519754020168573795117120171768) := by decide +kernel
theorem tab8192_29 : run (-364124115140901273600) 949488025315849929752576 1329227604809624319126415241529909409 1019505004168798934764675839253091 8798558659822614311920884431189271213621904 128 (-70609733868246990848) 21419228599329755136 (-1271991884551068505397945340445044811) 385854519754020168573795117120171768 = some (-72369180235439398912, 14395124965956405248, -1303687252565732735913851516381635363, 259319517730532025535172787767078038) := by decide +kernel
theorem tab8192_30 : run (-364124115140901273600) 949488025315849929752576 1329227604809624319126415241529909409 1019505004168798934764675839253091 8798558659822614311920884431189271213621904 128 (-72369180235439398912) 14395124965956405248 (-1303687252565732735913851516381635363) 259319517730532025535172787767078038 = some (-73431671835946450944, 7232388409985122304, -1322827399670243577784911761655668519, 130287126992830687481049581775057345) := by decide +kernel
theorem tab8192_31 : run (-364124115140901273600) 949488025315849929752576 1329227604809624319126415241529909409 1019505004168798934764675839253091 8798558659822614311920884431189271213621904 128 (-73431671835946450944) 7232388409985122304 (-1322827399670243577784911761655668519) 130287126992830687481049581775057345 = some (-73786976294838206464, 6528, -1329227995784915872903807060280342482, -1446) := by decide +kernel
theorem cum8192_1 : run (-364124115140901273600) 949488025315849929752576 1329227604809624319126415241529909409 1019505004168798934764675839253091 8798558659822614311920884431189271213621904 256 73786976294838206464 0 1329227995784915872903807060280344576 0 = some (72369180235439398912, 14395124965956399104, 1303687252565732735913851516381637069, 259319517730532025535172787767079589) := run_add (M := 128) (N := 128) (by norm_num) tab8192_0 tab8192_1
theorem cum8192_2 : run (-364124115140901273600) 949488025315849929752576 1329227604809624319126415241529909409 1019505004168798934764675839253091 8798558659822614311920884431189271213621904 384 73786976294838206464 0 1329227995784915872903807060280344576 0 = some (70609733868246990848, 21419228599329746944, 1271991884551068505397945340445046320, 385854519754020168573795117120173336) := run_add (M := 256) (N := 128) (by norm_num) cum8192_1 tab8192_2
theorem cum8192_3 : run (-364124115140901273600) 949488025315849929752576 1329227604809624319126415241529909409 1019505004168798934764675839253091 8798558659822614311920884431189271213621904 512 73786976294838206464 0 1329227995784915872903807060280344576 0 = some (68170277164696543232, 28237053352350187520, 1228046539346682719437376742195207226, 508673531822740685630297997568867752) := run_add (M := 384) (N := 128) (by norm_num) cum8192_2 tab8192_3
theorem cum8192_4 : run (-364124115140901273600) 949488025315849929752576 1329227604809624319126415241529909409 1019505004168798934764675839253091 8798558659822614311920884431189271213621904 640 73786976294838206464 0 1329227995784915872903807060280344576 0 = some (65074303426385887232, 34782939845643980800, 1172274434649862936731671497047771897, 626593739710770299435105923947889626) := run_add (M := 512) (N := 128) (by norm_num) cum8192_3 tab8192_4
theorem cum8192_5 : run (-364124115140901273600) 949488025315849929752576 1329227604809624319126415241529909409 1019505004168798934764675839253091 8798558659822614311920884431189271213621904 768 73786976294838206464 0 1329227995784915872903807060280344576 0 = some (61351628572846309376, 40993847613935198208, 1105212686316973235412479860799096501, 738479507354404555302404965860897583) := run_add (M := 640) (N := 128) (by norm_num) cum8192_4 tab8192_5
theorem cum8192_6 : run (-364124115140901273600) 949488025315849929752576 1329227604809624319126415241529909409 1019505004168798934764675839253091 8798558659822614311920884431189271213621904 896 73786976294838206464 0 1329227995784915872903807060280344576 0 = some (57038103997938475008, 46809962220187574272, 1027507135644140032896055286342772109, 843253313648253115886949368180610969) := run_add (M := 768) (N := 128) (by norm_num) cum8192_5 tab8192_6
theorem cum8192_7 : run (-364124115140901273600) 949488025315849929752576 1329227604809624319126415241529909409 1019505004168798934764675839253091 8798558659822614311920884431189271213621904 1024 73786976294838206464 0 1329227995784915872903807060280344576 0 = some (52175271301331206144, 52175271301331197952, 939906129562517623222788173740722443, 939906129562517623222788173740722113) := run_add (M := 896) (N := 128) (by norm_num) cum8192_6 tab8192_7
theorem cum8192_8 : run (-364124115140901273600) 949488025315849929752576 1329227604809624319126415241529909409 1019505004168798934764675839253091 8798558659822614311920884431189271213621904 1152 73786976294838206464 0 1329227995784915872903807060280344576 0 = some (46809962220187582464, 57038103997938466816, 843253313648253115886949368180611176, 1027507135644140032896055286342771642) := run_add (M := 1024) (N := 128) (by norm_num) cum8192_7 tab8192_8
theorem cum8192_9 : run (-364124115140901273600) 949488025315849929752576 1329227604809624319126415241529909409 1019505004168798934764675839253091 8798558659822614311920884431189271213621904 1280 73786976294838206464 0 1329227995784915872903807060280344576 0 = some (40993847613935206400, 61351628572846301184, 738479507354404555302404965860897689, 1105212686316973235412479860799095885) := run_add (M := 1152) (N := 128) (by norm_num) cum8192_8 tab8192_9
theorem cum8192_10 : run (-364124115140901273600) 949488025315849929752576 1329227604809624319126415241529909409 1019505004168798934764675839253091 8798558659822614311920884431189271213621904 1408 73786976294838206464 0 1329227995784915872903807060280344576 0 = some (34782939845643988992, 65074303426385887232, 626593739710770299435105923947889652, 1172274434649862936731671497047771114) := run_add (M := 1280) (N := 128) (by norm_num) cum8192_9 tab8192_10
theorem cum8192_11 : run (-364124115140901273600) 949488025315849929752576 1329227604809624319126415241529909409 1019505004168798934764675839253091 8798558659822614311920884431189271213621904 1536 73786976294838206464 0 1329227995784915872903807060280344576 0 = some (28237053352350195712, 68170277164696543232, 508673531822740685630297997568867712, 1228046539346682719437376742195206261) := run_add (M := 1408) (N := 128) (by norm_num) cum8192_10 tab8192_11
theorem cum8192_12 : run (-364124115140901273600) 949488025315849929752576 1329227604809624319126415241529909409 1019505004168798934764675839253091 8798558659822614311920884431189271213621904 1664 73786976294838206464 0 1329227995784915872903807060280344576 0 = some (21419228599329755136, 70609733868246990848, 385854519754020168573795117120173244, 1271991884551068505397945340445045172) := run_add (M := 1536) (N := 128) (by norm_num) cum8192_11 tab8192_12
theorem cum8192_13 : run (-364124115140901273600) 949488025315849929752576 1329227604809624319126415241529909409 1019505004168798934764675839253091 8798558659822614311920884431189271213621904 1792 73786976294838206464 0 1329227995784915872903807060280344576 0 = some (14395124965956405248, 72369180235439398912, 259319517730532025535172787767079485, 1303687252565732735913851516381635740) := run_add (M := 1664) (N := 128) (by norm_num) cum8192_12 tab8192_13
theorem cum8192_14 : run (-364124115140901273600) 949488025315849929752576 1329227604809624319126415241529909409 1019505004168798934764675839253091 8798558659822614311920884431189271213621904 1920 73786976294838206464 0 1329227995784915872903807060280344576 0 = some (7232388409985122304, 73431671835946450944, 130287126992830687481049581775058760, 1322827399670243577784911761655668903) := run_add (M := 1792) (N := 128) (by norm_num) cum8192_13 tab8192_14
theorem cum8192_15 : run (-364124115140901273600) 949488025315849929752576 1329227604809624319126415241529909409 1019505004168798934764675839253091 8798558659822614311920884431189271213621904 2048 73786976294838206464 0 1329227995784915872903807060280344576 0 = some (6528, 73786976294838206464, -69, 1329227995784915872903807060280342871) := run_add (M := 1920) (N := 128) (by norm_num) cum8192_14 tab8192_15
theorem cum8192_16 : run (-364124115140901273600) 949488025315849929752576 1329227604809624319126415241529909409 1019505004168798934764675839253091 8798558659822614311920884431189271213621904 2176 73786976294838206464 0 1329227995784915872903807060280344576 0 = some (-7232388409985108992, 73431671835946450944, -130287126992830687481049581775058889, 1322827399670243577784911761655668706) := run_add (M := 2048) (N := 128) (by norm_num) cum8192_15 tab8192_16
theorem cum8192_17 : run (-364124115140901273600) 949488025315849929752576 1329227604809624319126415241529909409 1019505004168798934764675839253091 8798558659822614311920884431189271213621904 2304 73786976294838206464 0 1329227995784915872903807060280344576 0 = some (-14395124965956392960, 72369180235439398912, -259319517730532025535172787767079581, 1303687252565732735913851516381635354) := run_add (M := 2176) (N := 128) (by norm_num) cum8192_16 tab8192_17
theorem cum8192_18 : run (-364124115140901273600) 949488025315849929752576 1329227604809624319126415241529909409 1019505004168798934764675839253091 8798558659822614311920884431189271213621904 2432 73786976294838206464 0 1329227995784915872903807060280344576 0 = some (-21419228599329746944, 70609733868246990848, -385854519754020168573795117120173286, 1271991884551068505397945340445044606) := run_add (M := 2304) (N := 128) (by norm_num) cum8192_17 tab8192_18
theorem cum8192_19 : run (-364124115140901273600) 949488025315849929752576 1329227604809624319126415241529909409 1019505004168798934764675839253091 8798558659822614311920884431189271213621904 2560 73786976294838206464 0 1329227995784915872903807060280344576 0 = some (-28237053352350187520, 68170277164696543232, -508673531822740685630297997568867665, 1228046539346682719437376742195205520) := run_add (M := 2432) (N := 128) (by norm_num) cum8192_18 tab8192_19
theorem cum8192_20 : run (-364124115140901273600) 949488025315849929752576 1329227604809624319126415241529909409 1019505004168798934764675839253091 8798558659822614311920884431189271213621904 2688 73786976294838206464 0 1329227995784915872903807060280344576 0 = some (-34782939845643980800, 65074303426385887232, -626593739710770299435105923947889505, 1172274434649862936731671497047770204) := run_add (M := 2560) (N := 128) (by norm_num) cum8192_19 tab8192_20
theorem cum8192_21 : run (-364124115140901273600) 949488025315849929752576 1329227604809624319126415241529909409 1019505004168798934764675839253091 8798558659822614311920884431189271213621904 2816 73786976294838206464 0 1329227995784915872903807060280344576 0 = some (-40993847613935198208, 61351628572846309376, -738479507354404555302404965860897420, 1105212686316973235412479860799094825) := run_add (M := 2688) (N := 128) (by norm_num) cum8192_20 tab8192_21
theorem cum8192_22 : run (-364124115140901273600) 949488025315849929752576 1329227604809624319126415241529909409 1019505004168798934764675839253091 8798558659822614311920884431189271213621904 2944 73786976294838206464 0 1329227995784915872903807060280344576 0 = some (-46809962220187574272, 57038103997938475008, -843253313648253115886949368180610767, 1027507135644140032896055286342770446) := run_add (M := 2816) (N := 128) (by norm_num) cum8192_21 tab8192_22
theorem cum8192_23 : run (-364124115140901273600) 949488025315849929752576 1329227604809624319126415241529909409 1019505004168798934764675839253091 8798558659822614311920884431189271213621904 3072 73786976294838206464 0 1329227995784915872903807060280344576 0 = some (-52175271301331197952, 52175271301331206144, -939906129562517623222788173740721877, 939906129562517623222788173740720800) := run_add (M := 2944) (N := 128) (by norm_num) cum8192_22 tab8192_23
theorem cum8192_24 : run (-364124115140901273600) 949488025315849929752576 1329227604809624319126415241529909409 1019505004168798934764675839253091 8798558659822614311920884431189271213621904 3200 73786976294838206464 0 1329227995784915872903807060280344576 0 = some (-57038103997938466816, 46809962220187582464, -1027507135644140032896055286342771380, 843253313648253115886949368180609559) := run_add (M := 3072) (N := 128) (by norm_num) cum8192_23 tab8192_24
theorem cum8192_25 : run (-364124115140901273600) 949488025315849929752576 1329227604809624319126415241529909409 1019505004168798934764675839253091 8798558659822614311920884431189271213621904 3328 73786976294838206464 0 1329227995784915872903807060280344576 0 = some (-61351628572846301184, 40993847613935206400, -1105212686316973235412479860799095586, 738479507354404555302404965860896100) := run_add (M := 3200) (N := 128) (by norm_num) cum8192_24 tab8192_25
theorem cum8192_26 : run (-364124115140901273600) 949488025315849929752576 1329227604809624319126415241529909409 1019505004168798934764675839253091 8798558659822614311920884431189271213621904 3456 73786976294838206464 0 1329227995784915872903807060280344576 0 = some (-65074303426385887232, 34782939845643988992, -1172274434649862936731671497047770791, 626593739710770299435105923947888090) := run_add (M := 3328) (N := 128) (by norm_num) cum8192_25 tab8192_26
theorem cum8192_27 : run (-364124115140901273600) 949488025315849929752576 1329227604809624319126415241529909409 1019505004168798934764675839253091 8798558659822614311920884431189271213621904 3584 73786976294838206464 0 1329227995784915872903807060280344576 0 = some (-68170277164696543232, 28237053352350195712, -1228046539346682719437376742195205918, 508673531822740685630297997568866187) := run_add (M := 3456) (N := 128) (by norm_num) cum8192_26 tab8192_27
theorem cum8192_28 : run (-364124115140901273600) 949488025315849929752576 1329227604809624319126415241529909409 1019505004168798934764675839253091 8798558659822614311920884431189271213621904 3712 73786976294838206464 0 1329227995784915872903807060280344576 0 = some (-70609733868246990848, 21419228599329755136, -1271991884551068505397945340445044811, 385854519754020168573795117120171768) := run_add (M := 3584) (N := 128) (by norm_num) cum8192_27 tab8192_28
theorem cum8192_29 : run (-364124115140901273600) 949488025315849929752576 1329227604809624319126415241529909409 1019505004168798934764675839253091 8798558659822614311920884431189271213621904 3840 73786976294838206464 0 1329227995784915872903807060280344576 0 = some (-72369180235439398912, 14395124965956405248, -1303687252565732735913851516381635363, 259319517730532025535172787767078038) := run_add (M := 3712) (N := 128) (by norm_num) cum8192_28 tab8192_29
theorem cum8192_30 : run (-364124115140901273600) 949488025315849929752576 1329227604809624319126415241529909409 1019505004168798934764675839253091 8798558659822614311920884431189271213621904 3968 73786976294838206464 0 1329227995784915872903807060280344576 0 = some (-73431671835946450944, 7232388409985122304, -1322827399670243577784911761655668519, 130287126992830687481049581775057345) := run_add (M := 3840) (N := 128) (by norm_num) cum8192_29 tab8192_30
theorem tab8192 : run (-364124115140901273600) 949488025315849929752576 1329227604809624319126415241529909409 1019505004168798934764675839253091 8798558659822614311920884431189271213621904 4096 73786976294838206464 0 1329227995784915872903807060280344576 0 = some (-73786976294838206464, 6528, -1329227995784915872903807060280342482, -1446) := run_add (M := 3968) (N := 128) (by norm_num) cum8192_30 tab8192_31

end KInt
end WD
