import Verif.Model.ParamInit

/-! # The parameter files that come with the library

The texts of `/repo/param/*.param`, byte for byte, and the numbers in them. -/

set_option autoImplicit false
set_option linter.style.longLine false

namespace Pbc.Shipped

open Pbc.Param (Par)

/-- `/repo/param/a.param:1-8`. -/
def aText : String :=
  "type a\nq 8780710799663312522437781984754049815806883199414208211028653399266475630880222957078625179422662221423155858769582317459277713367317481324925129998224791\nh 12016012264891146079388821366740534204802954401251311822919615131047207289359704531102844802183906537786776\nr 730750818665451621361119245571504901405976559617\nexp2 159\nexp1 107\nsign1 1\nsign0 1\n"

/-- The numbers in `/repo/param/a.param:1-8`. -/
def aPar : Par :=
  .a 8780710799663312522437781984754049815806883199414208211028653399266475630880222957078625179422662221423155858769582317459277713367317481324925129998224791 730750818665451621361119245571504901405976559617 12016012264891146079388821366740534204802954401251311822919615131047207289359704531102844802183906537786776 159 107 1 1

/-- `/repo/param/a1.param:1-4`. -/
def a1Text : String :=
  "type a1\np 48512875896303752499712277254589628516419352188294521198189567511009073158115045361294839347099315898960045398524682007334164928531594799149100548036445760110913157420655690361891290858441360807158247259460501343449199712532828063940008683740048500980441989713739689655610578458388126934242630557397618776539259\nn 36203638728584889925158415861634051131656232976339194924022065306723188923966451762160327870969638730567198058600508960697138006366861790409776528385407283664860565239295291314844246909284597617282274074224254733917313218308080644731349763985110821627195514711746037056425804819692632040479575042834043863089\nl 1340\n"

/-- The numbers in `/repo/param/a1.param:1-4`. -/
def a1Par : Par :=
  .a1 48512875896303752499712277254589628516419352188294521198189567511009073158115045361294839347099315898960045398524682007334164928531594799149100548036445760110913157420655690361891290858441360807158247259460501343449199712532828063940008683740048500980441989713739689655610578458388126934242630557397618776539259 36203638728584889925158415861634051131656232976339194924022065306723188923966451762160327870969638730567198058600508960697138006366861790409776528385407283664860565239295291314844246909284597617282274074224254733917313218308080644731349763985110821627195514711746037056425804819692632040479575042834043863089 1340

/-- `/repo/param/d159.param:1-14`. -/
def d159Text : String :=
  "type d\nq 625852803282871856053922297323874661378036491717\nn 625852803282871856053923088432465995634661283063\nh 3\nr 208617601094290618684641029477488665211553761021\na 581595782028432961150765424293919699975513269268\nb 517921465817243828776542439081147840953753552322\nk 6\nnk 60094290356408407130984161127310078516360031868417968262992864809623507269833854678414046779817844853757026858774966331434198257512457993293271849043664655146443229029069463392046837830267994222789160047337432075266619082657640364986415435746294498140589844832666082434658532589211525696\nhk 1380801711862212484403205699005242141541629761433899149236405232528956996854655261075303661691995273080620762287276051361446528504633283152278831183711301329765591450680250000592437612973269056\ncoeff0 472731500571015189154958232321864199355792223347\ncoeff1 352243926696145937581894994871017455453604730246\ncoeff2 289113341693870057212775990719504267185772707305\nnqr 431211441436589568382088865288592347194866189652\n"

/-- The numbers in `/repo/param/d159.param:1-14`. -/
def d159Par : Par :=
  .d 625852803282871856053922297323874661378036491717 625852803282871856053923088432465995634661283063 3 208617601094290618684641029477488665211553761021 581595782028432961150765424293919699975513269268 517921465817243828776542439081147840953753552322 6 60094290356408407130984161127310078516360031868417968262992864809623507269833854678414046779817844853757026858774966331434198257512457993293271849043664655146443229029069463392046837830267994222789160047337432075266619082657640364986415435746294498140589844832666082434658532589211525696 1380801711862212484403205699005242141541629761433899149236405232528956996854655261075303661691995273080620762287276051361446528504633283152278831183711301329765591450680250000592437612973269056 [472731500571015189154958232321864199355792223347, 352243926696145937581894994871017455453604730246, 289113341693870057212775990719504267185772707305] 431211441436589568382088865288592347194866189652

/-- `/repo/param/d201.param:1-14`. -/
def d201Text : String :=
  "type d\nq 2094476214847295281570670320144695883131009753607350517892357\nn 2094476214847295281570670320143248652598286201895740019876423\nh 1122591\nr 1865751832009427548920907365321162072917283500309320153\na 9937051644888803031325524114144300859517912378923477935510\nb 6624701096592535354217016076096200573011941585948985290340\nk 6\nnk 84421409121513221644716967251498543569964760150943970280296295496165154657097987617093928595467244393873913569302597521196137376192587250931727762632568620562823714441576400096248911214941742242106512149305076320555351603145285797909942596124862593877499051211952936404822228308154770272833273836975042632765377879565229109013234552083886934379264203243445590336\nhk 24251848326363771171270027814768648115136299306034875585195931346818912374815385257266068811350396365799298585287746735681314613260560203359251331805443378322987677594618057568388400134442772232086258797844238238645130212769322779762522643806720212266304\ncoeff0 362345194706722765382504711221797122584657971082977778415831\ncoeff1 856577648996637037517940613304411075703495574379408261091623\ncoeff2 372728063705230489408480761157081724912117414311754674153886\nnqr 279252656555925299126768437760706333663688384547737180929542\n"

/-- The numbers in `/repo/param/d201.param:1-14`. -/
def d201Par : Par :=
  .d 2094476214847295281570670320144695883131009753607350517892357 2094476214847295281570670320143248652598286201895740019876423 1122591 1865751832009427548920907365321162072917283500309320153 9937051644888803031325524114144300859517912378923477935510 6624701096592535354217016076096200573011941585948985290340 6 84421409121513221644716967251498543569964760150943970280296295496165154657097987617093928595467244393873913569302597521196137376192587250931727762632568620562823714441576400096248911214941742242106512149305076320555351603145285797909942596124862593877499051211952936404822228308154770272833273836975042632765377879565229109013234552083886934379264203243445590336 24251848326363771171270027814768648115136299306034875585195931346818912374815385257266068811350396365799298585287746735681314613260560203359251331805443378322987677594618057568388400134442772232086258797844238238645130212769322779762522643806720212266304 [362345194706722765382504711221797122584657971082977778415831, 856577648996637037517940613304411075703495574379408261091623, 372728063705230489408480761157081724912117414311754674153886] 279252656555925299126768437760706333663688384547737180929542

/-- `/repo/param/d224.param:1-14`. -/
def d224Text : String :=
  "type d\nq 15028799613985034465755506450771565229282832217860390155996483840017\nn 15028799613985034465755506450771561352583254744125520639296541195021\nh 1\nr 15028799613985034465755506450771561352583254744125520639296541195021\na 1871224163624666631860092489128939059944978347142292177323825642096\nb 9795501723343380547144152006776653149306466138012730640114125605701\nk 6\nnk 11522474695025217370062603013790980334538096429455689114222024912184432319228393204650383661781864806076247259556378350541669994344878430136202714945761488385890619925553457668158504202786580559970945936657636855346713598888067516214634859330554634505767198415857150479345944721710356274047707536156296215573412763735135600953865419000398920292535215757291539307525639675204597938919504807427238735811520\nhk 51014915936684265604900487195256160848193571244274648855332475661658304506316301006112887177277345010864012988127829655449256424871024500368597989462373813062189274150916552689262852603254011248502356041206544262755481779137398040376281542938513970473990787064615734720\ncoeff0 11975189258259697166257037825227536931446707944682470951111859446192\ncoeff1 13433042200347934827742738095249546804006687562088254057411901362771\ncoeff2 8327464521117791238079105175448122006759863625508043495770887411614\nnqr 142721363302176037340346936780070353538541593770301992936740616924\n"

/-- The numbers in `/repo/param/d224.param:1-14`. -/
def d224Par : Par :=
  .d 15028799613985034465755506450771565229282832217860390155996483840017 15028799613985034465755506450771561352583254744125520639296541195021 1 15028799613985034465755506450771561352583254744125520639296541195021 1871224163624666631860092489128939059944978347142292177323825642096 9795501723343380547144152006776653149306466138012730640114125605701 6 11522474695025217370062603013790980334538096429455689114222024912184432319228393204650383661781864806076247259556378350541669994344878430136202714945761488385890619925553457668158504202786580559970945936657636855346713598888067516214634859330554634505767198415857150479345944721710356274047707536156296215573412763735135600953865419000398920292535215757291539307525639675204597938919504807427238735811520 51014915936684265604900487195256160848193571244274648855332475661658304506316301006112887177277345010864012988127829655449256424871024500368597989462373813062189274150916552689262852603254011248502356041206544262755481779137398040376281542938513970473990787064615734720 [11975189258259697166257037825227536931446707944682470951111859446192, 13433042200347934827742738095249546804006687562088254057411901362771, 8327464521117791238079105175448122006759863625508043495770887411614] 142721363302176037340346936780070353538541593770301992936740616924

/-- `/repo/param/d105171-196-185.param:1-14`. -/
def d105171Text : String :=
  "type d\nq 90144054120102937439179516551801119443207521965651508326977\nn 90144054120102937439179516552101359437412329625948146453801\nh 3523\nr 25587298927080027658012919827448583433838299638361665187\na 53241464724463691897001131065853762954208272388634868483573\nb 5446291776274815451607581859968802155069674270539409546723\nk 6\nnk 536565217356706344663314419655601558604376922027564701618757289270614360593294739461568130362279778081437146273088457636627768012396592169059882662689261645948113285006858612654825829457395553891546397990662355454563776046265747800873542312230073566643975827908869710713161941935371830987701273239900997531501272405727670675418703842862606824000125008640\nhk 819546557806423450339849940898193664969813698879192227897917671302330185914203886301113045602626676261586588840857293388779160133822229389038218318388504449595493650939257095992443062327856033482709266319687677297858891026083277228064475554560\ncoeff0 43907136006531280293838495445857758305366399383908394927288\ncoeff1 21720089592072695009765372832780685887129370300993349347738\ncoeff2 11773373318911376280677890769414834592007872486079550520860\nnqr 4468071665857441743453009416233415235254714637554162977327\n"

/-- The numbers in `/repo/param/d105171-196-185.param:1-14`. -/
def d105171Par : Par :=
  .d 90144054120102937439179516551801119443207521965651508326977 90144054120102937439179516552101359437412329625948146453801 3523 25587298927080027658012919827448583433838299638361665187 53241464724463691897001131065853762954208272388634868483573 5446291776274815451607581859968802155069674270539409546723 6 536565217356706344663314419655601558604376922027564701618757289270614360593294739461568130362279778081437146273088457636627768012396592169059882662689261645948113285006858612654825829457395553891546397990662355454563776046265747800873542312230073566643975827908869710713161941935371830987701273239900997531501272405727670675418703842862606824000125008640 819546557806423450339849940898193664969813698879192227897917671302330185914203886301113045602626676261586588840857293388779160133822229389038218318388504449595493650939257095992443062327856033482709266319687677297858891026083277228064475554560 [43907136006531280293838495445857758305366399383908394927288, 21720089592072695009765372832780685887129370300993349347738, 11773373318911376280677890769414834592007872486079550520860] 4468071665857441743453009416233415235254714637554162977327

/-- `/repo/param/d277699-175-167.param:1-14`. -/
def d277699Text : String :=
  "type d\nq 24994387946177175129042685848468049026804978919305617\nn 24994387946177175129042685690371913886893430450813821\nh 229\nr 109145798891603384842981160219964689462416726859449\na 598438980536154202688764346450047600409548341922774\nb 2875105607672412900453598974161063211122182087044229\nk 6\nnk 243811978207976466816344961736020867657571589744716369993616160430124878187777534556332968211231348405325558364420372020389334407618390934280171068317414599279780297481622580529528050992634268269363295483561945471307823553023060227602413124921195950792341822316780542925838280447629986129163382236857435952423222720\nhk 20466377960554454661250703981850495382861210804514548253197536030737388862020158040530944627371011675413446234288217324489952533357398143673990515812569649274174108257473718452526832616061894959492351305900495030720\ncoeff0 10041240416257104004698194348998922958451952509010108\ncoeff1 6606091442536002616272024969858190106364268669962931\ncoeff2 12365372508104594162350045194732619146000136006974723\nnqr 4719190100394795070479603407875910135476373878231286\n"

/-- The numbers in `/repo/param/d277699-175-167.param:1-14`. -/
def d277699Par : Par :=
  .d 24994387946177175129042685848468049026804978919305617 24994387946177175129042685690371913886893430450813821 229 109145798891603384842981160219964689462416726859449 598438980536154202688764346450047600409548341922774 2875105607672412900453598974161063211122182087044229 6 243811978207976466816344961736020867657571589744716369993616160430124878187777534556332968211231348405325558364420372020389334407618390934280171068317414599279780297481622580529528050992634268269363295483561945471307823553023060227602413124921195950792341822316780542925838280447629986129163382236857435952423222720 20466377960554454661250703981850495382861210804514548253197536030737388862020158040530944627371011675413446234288217324489952533357398143673990515812569649274174108257473718452526832616061894959492351305900495030720 [10041240416257104004698194348998922958451952509010108, 6606091442536002616272024969858190106364268669962931, 12365372508104594162350045194732619146000136006974723] 4719190100394795070479603407875910135476373878231286

/-- `/repo/param/d278027-190-181.param:1-14`. -/
def d278027Text : String :=
  "type d\nq 1025495854338995749571854560267623501674077942914916484097\nn 1025495854338995749571854560299646865868662429911796824033\nh 507\nr 2022674268913206606650600710650191056940162583652459219\na 494269185205966411737543736898850690664292886001616030226\nb 329512790137310941158362491265900460442861924001077353484\nk 6\nnk 1163063573811270165418238020887346859653395473890436628526146579469835139893592951370316986442274188522240665142315088845208474263130963692231646660745632465067191546037520099467878991038317453245980447223411653285837935397784647413623321732546136850572717414092922159420979113590712309473365852809027797574703469302515439503999924539399090176\nhk 284283435268437561375615427397926034491451593725613267750320269284935326382124567760429621954504595753708251572460518724890352303911035771114654446079537012334942433977914482649786330507074232745179428411947147165283593756194384162816\ncoeff0 371147398957045566296469880060929177532640478149373679647\ncoeff1 799893859981434553395477926437166938993746654077284825629\ncoeff2 487916511441855364478875403860530511399828011671346895561\nnqr 229823540541650681569938894061962046762057059051593485287\n"

/-- The numbers in `/repo/param/d278027-190-181.param:1-14`. -/
def d278027Par : Par :=
  .d 1025495854338995749571854560267623501674077942914916484097 1025495854338995749571854560299646865868662429911796824033 507 2022674268913206606650600710650191056940162583652459219 494269185205966411737543736898850690664292886001616030226 329512790137310941158362491265900460442861924001077353484 6 1163063573811270165418238020887346859653395473890436628526146579469835139893592951370316986442274188522240665142315088845208474263130963692231646660745632465067191546037520099467878991038317453245980447223411653285837935397784647413623321732546136850572717414092922159420979113590712309473365852809027797574703469302515439503999924539399090176 284283435268437561375615427397926034491451593725613267750320269284935326382124567760429621954504595753708251572460518724890352303911035771114654446079537012334942433977914482649786330507074232745179428411947147165283593756194384162816 [371147398957045566296469880060929177532640478149373679647, 799893859981434553395477926437166938993746654077284825629, 487916511441855364478875403860530511399828011671346895561] 229823540541650681569938894061962046762057059051593485287

/-- `/repo/param/e.param:1-10`. -/
def eText : String :=
  "type e\nq 7245986106510086080714203333362098431608853335867425877960916928496629182991629664903654100214900946450053872786629995869445693724001299041657434948257845644905153122838458864000479326695430719258600053239930483226650953770354174712511646273516974069245462534034085895319225452125649979474047163305307830001\nr 730750862221594424981965739670091261094297337857\nh 13569343110918781839835249021482970252603216587988030044836106948825516930173270978617489032334001006615524543925753725725046733884363846960470444404747241287743773746682188521738728797153760275116924829183670000\na 7130970454025799000067946137594446075551569949583815943390108723282396973737794273397246892274981883807989525599540630855644968426794929215599380425269625872763801485968007136000471718335185787206876242871042697778608875139078711621836858237429403052273312335081163896980825048123655535355411494046493419999\nb 7169309004853894693616698536183663527570664411678352588247044791687141043489072737232715961588288238022010974661903752526911876859197052490952065266265699130144252031591491045333807587788600764557450846327338626261289568016170532652061787582791926724597362401398804563093625182790987016728290050466098223333\nexp2 159\nexp1 135\nsign1 1\nsign0 1\n"

/-- The numbers in `/repo/param/e.param:1-10`. -/
def ePar : Par :=
  .e 7245986106510086080714203333362098431608853335867425877960916928496629182991629664903654100214900946450053872786629995869445693724001299041657434948257845644905153122838458864000479326695430719258600053239930483226650953770354174712511646273516974069245462534034085895319225452125649979474047163305307830001 730750862221594424981965739670091261094297337857 13569343110918781839835249021482970252603216587988030044836106948825516930173270978617489032334001006615524543925753725725046733884363846960470444404747241287743773746682188521738728797153760275116924829183670000 7130970454025799000067946137594446075551569949583815943390108723282396973737794273397246892274981883807989525599540630855644968426794929215599380425269625872763801485968007136000471718335185787206876242871042697778608875139078711621836858237429403052273312335081163896980825048123655535355411494046493419999 7169309004853894693616698536183663527570664411678352588247044791687141043489072737232715961588288238022010974661903752526911876859197052490952065266265699130144252031591491045333807587788600764557450846327338626261289568016170532652061787582791926724597362401398804563093625182790987016728290050466098223333 159 135 1 1

/-- `/repo/param/f.param:1-7`. -/
def fText : String :=
  "type f\nq 205523667896953300194896352429254920972540065223\nr 205523667896953300194895899082072403858390252929\nb 40218105156867728698573668525883168222119515413\nbeta 115334401956802802075595682801335644058796914268\nalpha0 191079354656274778837764015557338301375963168470\nalpha1 71445317903696340296199556072836940741717506375\n"

/-- The numbers in `/repo/param/f.param:1-7`. -/
def fPar : Par :=
  .f 205523667896953300194896352429254920972540065223 205523667896953300194895899082072403858390252929 40218105156867728698573668525883168222119515413 115334401956802802075595682801335644058796914268 191079354656274778837764015557338301375963168470 71445317903696340296199556072836940741717506375

/-- `/repo/param/g149.param:1-16`. -/
def g149Text : String :=
  "type g\nq 503189899097385532598615948567975432740967203\nn 503189899097385532598571084778608176410973351\nh 1\nr 503189899097385532598571084778608176410973351\na 465197998498440909244782433627180757481058321\nb 463074517126110479409374670871346701448503064\nk 10\nnk 1040684643531490707494989587381629956832530311976146077888095795458709511789670022388326295177424065807612879371896982185473788988016190582073591316127396374860265835641044035656044524481121528846249501655527462202999638159773731830375673076317719519977183373353791119388388468745670818193868532404392452816602538968163226713846951514831917487400267590451867746120591750902040267826351982737642689423713163967384383105678367875981348397359466338807\nhk 4110127713690841149713310614420858884651261781185442551927080083178682965171097172366598236129731931693425629387502221804555636704708008882811353539555915064049685663790355716130262332064327767695339422323460458479884756000782939428852120522712008037615051139080628734566850259704397643028017435446110322024094259858170303605703280329322675124728639532674407\ncoeff0 67343110967802947677845897216565803152319250\ncoeff1 115936772834120270862756636148166314916823221\ncoeff2 87387877425076080433559927080662339215696505\ncoeff3 433223145899090928132052677121692683015058909\ncoeff4 405367866213598664862417230702935310328613596\nnqr 22204504160560785687198080413579021865783099\n"

/-- The numbers in `/repo/param/g149.param:1-16`. -/
def g149Par : Par :=
  .g 503189899097385532598615948567975432740967203 503189899097385532598571084778608176410973351 1 503189899097385532598571084778608176410973351 465197998498440909244782433627180757481058321 463074517126110479409374670871346701448503064 1040684643531490707494989587381629956832530311976146077888095795458709511789670022388326295177424065807612879371896982185473788988016190582073591316127396374860265835641044035656044524481121528846249501655527462202999638159773731830375673076317719519977183373353791119388388468745670818193868532404392452816602538968163226713846951514831917487400267590451867746120591750902040267826351982737642689423713163967384383105678367875981348397359466338807 4110127713690841149713310614420858884651261781185442551927080083178682965171097172366598236129731931693425629387502221804555636704708008882811353539555915064049685663790355716130262332064327767695339422323460458479884756000782939428852120522712008037615051139080628734566850259704397643028017435446110322024094259858170303605703280329322675124728639532674407 67343110967802947677845897216565803152319250 115936772834120270862756636148166314916823221 87387877425076080433559927080662339215696505 433223145899090928132052677121692683015058909 405367866213598664862417230702935310328613596 22204504160560785687198080413579021865783099

/-- `/repo/param/i.param:1-5`. -/
def iText : String :=
  "type i\nm 97\nt 12\nn 2726865189058261010774960798134976187171462721\nn2 7\n"

/-- The numbers in `/repo/param/i.param:1-5`. -/
def iPar : Par :=
  .i 97 12 2726865189058261010774960798134976187171462721 7

end Pbc.Shipped
