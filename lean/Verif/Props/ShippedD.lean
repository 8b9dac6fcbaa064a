import Verif.Props.Shipped

/-! # C140, type D: the parameter files for `k = 6` -/

set_option autoImplicit false
set_option linter.style.longLine false

namespace Pbc.Shipped

open Pbc.Param Pbc.Certify

theorem d159_fact : Fact (Nat.Prime 625852803282871856053922297323874661378036491717) := ⟨d159_q⟩

set_option maxRecDepth 20000 in
theorem d159_good : GoodD 625852803282871856053922297323874661378036491717 625852803282871856053923088432465995634661283063 3 208617601094290618684641029477488665211553761021 581595782028432961150765424293919699975513269268 517921465817243828776542439081147840953753552322 60094290356408407130984161127310078516360031868417968262992864809623507269833854678414046779817844853757026858774966331434198257512457993293271849043664655146443229029069463392046837830267994222789160047337432075266619082657640364986415435746294498140589844832666082434658532589211525696 1380801711862212484403205699005242141541629761433899149236405232528956996854655261075303661691995273080620762287276051361446528504633283152278831183711301329765591450680250000592437612973269056 472731500571015189154958232321864199355792223347 352243926696145937581894994871017455453604730246 289113341693870057212775990719504267185772707305 431211441436589568382088865288592347194866189652 :=
  goodD_of_check (x := 229753725401564969297229206985151965401681225698) (y := 394508286409433720097705689856270973583105266791) (kq := 159) (kr := 157) (w := [219249989239871148670024822406507352153095187904, 268904489142776146942055293320163507252853303765, 603536536583855373032156925599039020292351293011]) d159_fact d159_r (by decide +kernel)

/-- **C140** for `d159.param`: it is read as what it says, and gives a working pairing. -/
theorem C140_d159 : Reads d159Text d159Par ∧ ∃ q n h r a b nk hk c0 c1 c2 v : ℕ,
    d159Par = .d q n h r a b 6 nk hk [c0, c1, c2] v ∧ GoodD q n h r a b nk hk c0 c1 c2 v :=
  ⟨d159_reads, _, _, _, _, _, _, _, _, _, _, _, _, rfl, d159_good⟩

theorem d201_fact : Fact (Nat.Prime 2094476214847295281570670320144695883131009753607350517892357) := ⟨d201_q⟩

set_option maxRecDepth 20000 in
theorem d201_good : GoodD 2094476214847295281570670320144695883131009753607350517892357 2094476214847295281570670320143248652598286201895740019876423 1122591 1865751832009427548920907365321162072917283500309320153 9937051644888803031325524114144300859517912378923477935510 6624701096592535354217016076096200573011941585948985290340 84421409121513221644716967251498543569964760150943970280296295496165154657097987617093928595467244393873913569302597521196137376192587250931727762632568620562823714441576400096248911214941742242106512149305076320555351603145285797909942596124862593877499051211952936404822228308154770272833273836975042632765377879565229109013234552083886934379264203243445590336 24251848326363771171270027814768648115136299306034875585195931346818912374815385257266068811350396365799298585287746735681314613260560203359251331805443378322987677594618057568388400134442772232086258797844238238645130212769322779762522643806720212266304 362345194706722765382504711221797122584657971082977778415831 856577648996637037517940613304411075703495574379408261091623 372728063705230489408480761157081724912117414311754674153886 279252656555925299126768437760706333663688384547737180929542 :=
  goodD_of_check (x := 1752336114869961720968880049811989827060428476248416790958339) (y := 1688711861935670309935367713598132546698678446001452294889772) (kq := 201) (kr := 180) (w := [296210360020769477028030449305037055034299180526886764638606, 408742187781963863866979325723852895659944993619977170627425, 88863240388112982033007412466973341011635268461884227468760]) d201_fact d201_r (by decide +kernel)

/-- **C140** for `d201.param`: it is read as what it says, and gives a working pairing. -/
theorem C140_d201 : Reads d201Text d201Par ∧ ∃ q n h r a b nk hk c0 c1 c2 v : ℕ,
    d201Par = .d q n h r a b 6 nk hk [c0, c1, c2] v ∧ GoodD q n h r a b nk hk c0 c1 c2 v :=
  ⟨d201_reads, _, _, _, _, _, _, _, _, _, _, _, _, rfl, d201_good⟩

theorem d224_fact : Fact (Nat.Prime 15028799613985034465755506450771565229282832217860390155996483840017) := ⟨d224_q⟩

set_option maxRecDepth 20000 in
theorem d224_good : GoodD 15028799613985034465755506450771565229282832217860390155996483840017 15028799613985034465755506450771561352583254744125520639296541195021 1 15028799613985034465755506450771561352583254744125520639296541195021 1871224163624666631860092489128939059944978347142292177323825642096 9795501723343380547144152006776653149306466138012730640114125605701 11522474695025217370062603013790980334538096429455689114222024912184432319228393204650383661781864806076247259556378350541669994344878430136202714945761488385890619925553457668158504202786580559970945936657636855346713598888067516214634859330554634505767198415857150479345944721710356274047707536156296215573412763735135600953865419000398920292535215757291539307525639675204597938919504807427238735811520 51014915936684265604900487195256160848193571244274648855332475661658304506316301006112887177277345010864012988127829655449256424871024500368597989462373813062189274150916552689262852603254011248502356041206544262755481779137398040376281542938513970473990787064615734720 11975189258259697166257037825227536931446707944682470951111859446192 13433042200347934827742738095249546804006687562088254057411901362771 8327464521117791238079105175448122006759863625508043495770887411614 142721363302176037340346936780070353538541593770301992936740616924 :=
  goodD_of_check (x := 1) (y := 863515928440523376128467331952514821943349520996932121845489448427) (kq := 224) (kr := 223) (w := [7754697533743476513775761482170358783956915709002251377949995274898, 7595847413784549396103198364647224648909942280557174389920267497926, 2304271172049439127698098518818555771479547565135721753967496414230]) d224_fact d224_r (by decide +kernel)

/-- **C140** for `d224.param`: it is read as what it says, and gives a working pairing. -/
theorem C140_d224 : Reads d224Text d224Par ∧ ∃ q n h r a b nk hk c0 c1 c2 v : ℕ,
    d224Par = .d q n h r a b 6 nk hk [c0, c1, c2] v ∧ GoodD q n h r a b nk hk c0 c1 c2 v :=
  ⟨d224_reads, _, _, _, _, _, _, _, _, _, _, _, _, rfl, d224_good⟩

theorem d105171_fact : Fact (Nat.Prime 90144054120102937439179516551801119443207521965651508326977) := ⟨d105171_q⟩

set_option maxRecDepth 20000 in
theorem d105171_good : GoodD 90144054120102937439179516551801119443207521965651508326977 90144054120102937439179516552101359437412329625948146453801 3523 25587298927080027658012919827448583433838299638361665187 53241464724463691897001131065853762954208272388634868483573 5446291776274815451607581859968802155069674270539409546723 536565217356706344663314419655601558604376922027564701618757289270614360593294739461568130362279778081437146273088457636627768012396592169059882662689261645948113285006858612654825829457395553891546397990662355454563776046265747800873542312230073566643975827908869710713161941935371830987701273239900997531501272405727670675418703842862606824000125008640 819546557806423450339849940898193664969813698879192227897917671302330185914203886301113045602626676261586588840857293388779160133822229389038218318388504449595493650939257095992443062327856033482709266319687677297858891026083277228064475554560 43907136006531280293838495445857758305366399383908394927288 21720089592072695009765372832780685887129370300993349347738 11773373318911376280677890769414834592007872486079550520860 4468071665857441743453009416233415235254714637554162977327 :=
  goodD_of_check (x := 61337063790811763757829190325212245231999230492696389073458) (y := 73916968290454906121476230311131631912257607439479670782815) (kq := 196) (kr := 184) (w := [65003014151956345190057291416104294023483309153672524774238, 54975800683892271148278650652603676623565727911886736073062, 27362531804941628349864765264564449778843623744993982616102]) d105171_fact d105171_r (by decide +kernel)

/-- **C140** for `d105171-196-185.param`: it is read as what it says, and gives a working pairing. -/
theorem C140_d105171 : Reads d105171Text d105171Par ∧ ∃ q n h r a b nk hk c0 c1 c2 v : ℕ,
    d105171Par = .d q n h r a b 6 nk hk [c0, c1, c2] v ∧ GoodD q n h r a b nk hk c0 c1 c2 v :=
  ⟨d105171_reads, _, _, _, _, _, _, _, _, _, _, _, _, rfl, d105171_good⟩

theorem d277699_fact : Fact (Nat.Prime 24994387946177175129042685848468049026804978919305617) := ⟨d277699_q⟩

set_option maxRecDepth 20000 in
theorem d277699_good : GoodD 24994387946177175129042685848468049026804978919305617 24994387946177175129042685690371913886893430450813821 229 109145798891603384842981160219964689462416726859449 598438980536154202688764346450047600409548341922774 2875105607672412900453598974161063211122182087044229 243811978207976466816344961736020867657571589744716369993616160430124878187777534556332968211231348405325558364420372020389334407618390934280171068317414599279780297481622580529528050992634268269363295483561945471307823553023060227602413124921195950792341822316780542925838280447629986129163382236857435952423222720 20466377960554454661250703981850495382861210804514548253197536030737388862020158040530944627371011675413446234288217324489952533357398143673990515812569649274174108257473718452526832616061894959492351305900495030720 10041240416257104004698194348998922958451952509010108 6606091442536002616272024969858190106364268669962931 12365372508104594162350045194732619146000136006974723 4719190100394795070479603407875910135476373878231286 :=
  goodD_of_check (x := 15676297657673828500118633265059694261394138016685093) (y := 20327946790183062029419500904262021193586544176689603) (kq := 175) (kr := 166) (w := [4507413357023261987261051636845623421529218306037889, 9264294800941115640765271098364799525194201820780906, 21427774128703922485446838284329636585011221071838309]) d277699_fact d277699_r (by decide +kernel)

/-- **C140** for `d277699-175-167.param`: it is read as what it says, and gives a working pairing. -/
theorem C140_d277699 : Reads d277699Text d277699Par ∧ ∃ q n h r a b nk hk c0 c1 c2 v : ℕ,
    d277699Par = .d q n h r a b 6 nk hk [c0, c1, c2] v ∧ GoodD q n h r a b nk hk c0 c1 c2 v :=
  ⟨d277699_reads, _, _, _, _, _, _, _, _, _, _, _, _, rfl, d277699_good⟩

theorem d278027_fact : Fact (Nat.Prime 1025495854338995749571854560267623501674077942914916484097) := ⟨d278027_q⟩

set_option maxRecDepth 20000 in
theorem d278027_good : GoodD 1025495854338995749571854560267623501674077942914916484097 1025495854338995749571854560299646865868662429911796824033 507 2022674268913206606650600710650191056940162583652459219 494269185205966411737543736898850690664292886001616030226 329512790137310941158362491265900460442861924001077353484 1163063573811270165418238020887346859653395473890436628526146579469835139893592951370316986442274188522240665142315088845208474263130963692231646660745632465067191546037520099467878991038317453245980447223411653285837935397784647413623321732546136850572717414092922159420979113590712309473365852809027797574703469302515439503999924539399090176 284283435268437561375615427397926034491451593725613267750320269284935326382124567760429621954504595753708251572460518724890352303911035771114654446079537012334942433977914482649786330507074232745179428411947147165283593756194384162816 371147398957045566296469880060929177532640478149373679647 799893859981434553395477926437166938993746654077284825629 487916511441855364478875403860530511399828011671346895561 229823540541650681569938894061962046762057059051593485287 :=
  goodD_of_check (x := 652890202737290751433687674882773354589548615325276385675) (y := 993594445757808145365626992558645385114660735070714572017) (kq := 190) (kr := 180) (w := [539895392675442677238593675788226521775086241140399864209, 1008851788582313040038966908394792107672949145781653989948, 894084053538503326050741797515040289554184197396488259114]) d278027_fact d278027_r (by decide +kernel)

/-- **C140** for `d278027-190-181.param`: it is read as what it says, and gives a working pairing. -/
theorem C140_d278027 : Reads d278027Text d278027Par ∧ ∃ q n h r a b nk hk c0 c1 c2 v : ℕ,
    d278027Par = .d q n h r a b 6 nk hk [c0, c1, c2] v ∧ GoodD q n h r a b nk hk c0 c1 c2 v :=
  ⟨d278027_reads, _, _, _, _, _, _, _, _, _, _, _, _, rfl, d278027_good⟩

end Pbc.Shipped
