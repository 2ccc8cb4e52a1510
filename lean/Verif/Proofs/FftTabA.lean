import Verif.Proofs.FftInt
/-
  Generated. The factors of the transforms of 8 to 2048 points in `double`, in pieces of 128.
-/
namespace WD
namespace KInt
set_option maxRecDepth 10000

theorem tab8 : run (-362584242804346847550767104) 875355796481033496067833856 939906129562517623222788173740722879 939906129562517623222788173740722879 98804932510950765752364646788919614935296 4 73786976294838206464 0 1329227995784915872903807060280344576 0 = some (-73786976294838206464, -16384, -1329227995784915872903807060280344578, -1) := by decide +kernel

theorem tab16 : run (-94232574513399189779513344) 473739143295903409821974528 1228046539346682719437376742195207522 508673531822740685630297997568868078 59290799612304317873760992790202106731561 8 73786976294838206464 0 1329227995784915872903807060280344576 0 = some (-73786976294838206464, -12288, -1329227995784915872903807060280344578, -1) := by decide +kernel

theorem tab32 : run (-23786670732482465528545280) 241510120900843326148706304 1303687252565732735913851516381637234 259319517730532025535172787767079734 11289752256756127965368456336851571566864 16 73786976294838206464 0 1329227995784915872903807060280344576 0 = some (-73786976294838206464, -4096, -1329227995784915872903807060280344569, -5) := by decide +kernel

theorem tab64 : run (-5961019652590430469488640) 121339342550216884961148928 1322827399670243577784911761655670506 130287126992830687481049581775058926 90631622283403360611075252835247076111129 32 73786976294838206464 0 1329227995784915872903807060280344576 0 = some (-73786976294838206464, 0, -1329227995784915872903807060280344569, 0) := by decide +kernel

theorem tab128 : run (-1491152992689849284689920) 60742838684526102565617664 1327626882450682015557247551709075781 65222126404060817041060257472886725 22657905570850840152618287777170299086596 64 73786976294838206464 0 1329227995784915872903807060280344576 0 = some (-73786976294838206464, -4608, -1329227995784915872903807060280344543, -14) := by decide +kernel

theorem tab256 : run (-372844395052969756721152) 30380569401765532895543296 1328827657164103520532853731409434135 32620888003610311989478491112336646 266781375666015755355285692226506277781504 128 73786976294838206464 0 1329227995784915872903807060280344576 0 = some (-73786976294838198272, 12800, -1329227995784915872903807060280344512, 17) := by decide +kernel

theorem tab512_0 : run (-93214608207523891642368) 15191428587516172546605056 1329127907361475680826626763934244751 16311672240725359659488398689095291 1189346217633470941470515613927832615422369 128 73786976294838206464 0 1329227995784915872903807060280344576 0 = some (-27392, 73786976294838206464, -42, 1329227995784915872903807060280344510) := by decide +kernel
theorem tab512_1 : run (-93214608207523891642368) 15191428587516172546605056 1329127907361475680826626763934244751 16311672240725359659488398689095291 1189346217633470941470515613927832615422369 128 (-27392) 73786976294838206464 (-42) 1329227995784915872903807060280344510 = some (-73786976294838206464, -54272, -1329227995784915872903807060280344527, -168) := by decide +kernel
theorem tab512 : run (-93214608207523891642368) 15191428587516172546605056 1329127907361475680826626763934244751 16311672240725359659488398689095291 1189346217633470941470515613927832615422369 256 73786976294838206464 0 1329227995784915872903807060280344576 0 = some (-73786976294838206464, -54272, -1329227995784915872903807060280344527, -168) := run_add (M := 128) (N := 128) (by norm_num) tab512_0 tab512_1

theorem tab1024_0 : run (-23303871396277638922240) 7595857283624852879572992 1329202973443536572322978140960776172 8155989654563034982999647902476720 1018900141172240548876521996072281107238329 128 73786976294838206464 0 1329227995784915872903807060280344576 0 = some (52175271301331132416, 52175271301331165184, 939906129562517623222788173740722826, 939906129562517623222788173740722744) := by decide +kernel
theorem tab1024_1 : run (-23303871396277638922240) 7595857283624852879572992 1329202973443536572322978140960776172 8155989654563034982999647902476720 1018900141172240548876521996072281107238329 128 52175271301331132416 52175271301331165184 939906129562517623222788173740722826 939906129562517623222788173740722744 = some (-32320, 73786976294838206464, 46, 1329227995784915872903807060280344312) := by decide +kernel
theorem tab1024_2 : run (-23303871396277638922240) 7595857283624852879572992 1329202973443536572322978140960776172 8155989654563034982999647902476720 1018900141172240548876521996072281107238329 128 (-32320) 73786976294838206464 46 1329227995784915872903807060280344312 = some (-52175271301331165184, 52175271301331116032, -939906129562517623222788173740722644, 939906129562517623222788173740722628) := by decide +kernel
theorem tab1024_3 : run (-23303871396277638922240) 7595857283624852879572992 1329202973443536572322978140960776172 8155989654563034982999647902476720 1018900141172240548876521996072281107238329 128 (-52175271301331165184) 52175271301331116032 (-939906129562517623222788173740722644) 939906129562517623222788173740722628 = some (-73786976294838181888, -39680, -1329227995784915872903807060280344216, -64) := by decide +kernel
theorem cum1024_1 : run (-23303871396277638922240) 7595857283624852879572992 1329202973443536572322978140960776172 8155989654563034982999647902476720 1018900141172240548876521996072281107238329 256 73786976294838206464 0 1329227995784915872903807060280344576 0 = some (-32320, 73786976294838206464, 46, 1329227995784915872903807060280344312) := run_add (M := 128) (N := 128) (by norm_num) tab1024_0 tab1024_1
theorem cum1024_2 : run (-23303871396277638922240) 7595857283624852879572992 1329202973443536572322978140960776172 8155989654563034982999647902476720 1018900141172240548876521996072281107238329 384 73786976294838206464 0 1329227995784915872903807060280344576 0 = some (-52175271301331165184, 52175271301331116032, -939906129562517623222788173740722644, 939906129562517623222788173740722628) := run_add (M := 256) (N := 128) (by norm_num) cum1024_1 tab1024_2
theorem tab1024 : run (-23303871396277638922240) 7595857283624852879572992 1329202973443536572322978140960776172 8155989654563034982999647902476720 1018900141172240548876521996072281107238329 512 73786976294838206464 0 1329227995784915872903807060280344576 0 = some (-73786976294838181888, -39680, -1329227995784915872903807060280344216, -64) := run_add (M := 384) (N := 128) (by norm_num) cum1024_2 tab1024_3

theorem tab2048_0 : run (-5825981558158720499712) 3797946515671948606832640 1329221740184851025198356259170864314 4078014019192042851417480083453511 1379893454073455010979113765633718050572836 128 73786976294838206464 0 1329227995784915872903807060280344576 0 = some (68170277164696518656, 28237053352350191616, 1228046539346682719437376742195207488, 508673531822740685630297997568868007) := by decide +kernel
theorem tab2048_1 : run (-5825981558158720499712) 3797946515671948606832640 1329221740184851025198356259170864314 4078014019192042851417480083453511 1379893454073455010979113765633718050572836 128 68170277164696518656 28237053352350191616 1228046539346682719437376742195207488 508673531822740685630297997568868007 = some (52175271301331083264, 52175271301331099648, 939906129562517623222788173740722835, 939906129562517623222788173740722731) := by decide +kernel
theorem tab2048_2 : run (-5825981558158720499712) 3797946515671948606832640 1329221740184851025198356259170864314 4078014019192042851417480083453511 1379893454073455010979113765633718050572836 128 52175271301331083264 52175271301331099648 939906129562517623222788173740722835 939906129562517623222788173740722731 = some (28237053352350171136, 68170277164696526848, 508673531822740685630297997568868049, 1228046539346682719437376742195207305) := by decide +kernel
theorem tab2048_3 : run (-5825981558158720499712) 3797946515671948606832640 1329221740184851025198356259170864314 4078014019192042851417480083453511 1379893454073455010979113765633718050572836 128 28237053352350171136 68170277164696526848 508673531822740685630297997568868049 1228046539346682719437376742195207305 = some (-19872, 73786976294838222848, 7, 1329227995784915872903807060280344306) := by decide +kernel
theorem tab2048_4 : run (-5825981558158720499712) 3797946515671948606832640 1329221740184851025198356259170864314 4078014019192042851417480083453511 1379893454073455010979113765633718050572836 128 (-19872) 73786976294838222848 7 1329227995784915872903807060280344306 = some (-28237053352350216192, 68170277164696526848, -508673531822740685630297997568868026, 1228046539346682719437376742195207218) := by decide +kernel
theorem tab2048_5 : run (-5825981558158720499712) 3797946515671948606832640 1329221740184851025198356259170864314 4078014019192042851417480083453511 1379893454073455010979113765633718050572836 128 (-28237053352350216192) 68170277164696526848 (-508673531822740685630297997568868026) 1228046539346682719437376742195207218 = some (-52175271301331124224, 52175271301331091456, -939906129562517623222788173740722775, 939906129562517623222788173740722559) := by decide +kernel
theorem tab2048_6 : run (-5825981558158720499712) 3797946515671948606832640 1329221740184851025198356259170864314 4078014019192042851417480083453511 1379893454073455010979113765633718050572836 128 (-52175271301331124224) 52175271301331091456 (-939906129562517623222788173740722775) 939906129562517623222788173740722559 = some (-68170277164696559616, 28237053352350175232, -1228046539346682719437376742195207369, 508673531822740685630297997568867760) := by decide +kernel
theorem tab2048_7 : run (-5825981558158720499712) 3797946515671948606832640 1329221740184851025198356259170864314 4078014019192042851417480083453511 1379893454073455010979113765633718050572836 128 (-68170277164696559616) 28237053352350175232 (-1228046539346682719437376742195207369) 508673531822740685630297997568867760 = some (-73786976294838255616, -23968, -1329227995784915872903807060280344380, -308) := by decide +kernel
theorem cum2048_1 : run (-5825981558158720499712) 3797946515671948606832640 1329221740184851025198356259170864314 4078014019192042851417480083453511 1379893454073455010979113765633718050572836 256 73786976294838206464 0 1329227995784915872903807060280344576 0 = some (52175271301331083264, 52175271301331099648, 939906129562517623222788173740722835, 939906129562517623222788173740722731) := run_add (M := 128) (N := 128) (by norm_num) tab2048_0 tab2048_1
theorem cum2048_2 : run (-5825981558158720499712) 3797946515671948606832640 1329221740184851025198356259170864314 4078014019192042851417480083453511 1379893454073455010979113765633718050572836 384 73786976294838206464 0 1329227995784915872903807060280344576 0 = some (28237053352350171136, 68170277164696526848, 508673531822740685630297997568868049, 1228046539346682719437376742195207305) := run_add (M := 256) (N := 128) (by norm_num) cum2048_1 tab2048_2
theorem cum2048_3 : run (-5825981558158720499712) 3797946515671948606832640 1329221740184851025198356259170864314 4078014019192042851417480083453511 1379893454073455010979113765633718050572836 512 73786976294838206464 0 1329227995784915872903807060280344576 0 = some (-19872, 73786976294838222848, 7, 1329227995784915872903807060280344306) := run_add (M := 384) (N := 128) (by norm_num) cum2048_2 tab2048_3
theorem cum2048_4 : run (-5825981558158720499712) 3797946515671948606832640 1329221740184851025198356259170864314 4078014019192042851417480083453511 1379893454073455010979113765633718050572836 640 73786976294838206464 0 1329227995784915872903807060280344576 0 = some (-28237053352350216192, 68170277164696526848, -508673531822740685630297997568868026, 1228046539346682719437376742195207218) := run_add (M := 512) (N := 128) (by norm_num) cum2048_3 tab2048_4
theorem cum2048_5 : run (-5825981558158720499712) 3797946515671948606832640 1329221740184851025198356259170864314 4078014019192042851417480083453511 1379893454073455010979113765633718050572836 768 73786976294838206464 0 1329227995784915872903807060280344576 0 = some (-52175271301331124224, 52175271301331091456, -939906129562517623222788173740722775, 939906129562517623222788173740722559) := run_add (M := 640) (N := 128) (by norm_num) cum2048_4 tab2048_5
theorem cum2048_6 : run (-5825981558158720499712) 3797946515671948606832640 1329221740184851025198356259170864314 4078014019192042851417480083453511 1379893454073455010979113765633718050572836 896 73786976294838206464 0 1329227995784915872903807060280344576 0 = some (-68170277164696559616, 28237053352350175232, -1228046539346682719437376742195207369, 508673531822740685630297997568867760) := run_add (M := 768) (N := 128) (by norm_num) cum2048_5 tab2048_6
theorem tab2048 : run (-5825981558158720499712) 3797946515671948606832640 1329221740184851025198356259170864314 4078014019192042851417480083453511 1379893454073455010979113765633718050572836 1024 73786976294838206464 0 1329227995784915872903807060280344576 0 = some (-73786976294838255616, -23968, -1329227995784915872903807060280344380, -308) := run_add (M := 896) (N := 128) (by norm_num) cum2048_6 tab2048_7

end KInt
end WD
