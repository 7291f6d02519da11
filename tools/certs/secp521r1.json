[
{
"N": "6864797660130609714981900799081393217269435300143305409394463459185543183397655394245057746333217197532963996371363321113864768612440380340372808892707005449",
"a": "849693867976883754762491996486735599273407792003335094889382283051556397062025597452070264399785812537540615909662847134412571102637199163362395751069489544",
"b": "0",
"x": "1105550316044158320805177344278673192259804462004781418788504513848749175716617364128542391228583018595925676862326528764699335167358436075722925675899396549",
"y": "870375752304687085318833337429508897010952994113817124879002637314649022529451365978365327955596685164701981783126887141652413981165380694211043758231366295",
"q": "686479766013060971498190079908139321726943530014330540939446345918554318339765758730440244612312778833786425153054546243354203395468523403405719371615128461"
},
{
"N": "686479766013060971498190079908139321726943530014330540939446345918554318339765758730440244612312778833786425153054546243354203395468523403405719371615128461",
"a": "293540961553895945094955186633973241381330863235748221521128419621206463341595212098509145984140112448686956967367159329750231235847505660298198701900063155",
"b": "461426155919633375612373872939984423143295422309234554122837508873788340924739853515413861866538773175638032944987962243142527687944075974512825491891210650",
"x": "421482210902392601329841447852840385280145543642102108347878278181587530660854335154551246173559668929278336889266971150381841978809975680665368868865595165",
"y": "70992193938972496992271606815457874296799220487390032857826550718190939086804815412969835982592513393277085515417831782504253497709074301322443648628346606",
"q": "24822091626159277245378582582735729018185693159326386351585418929655565459204694328008143828971913627544372171600250449052084094481663159167721683112007"
},
{
"N": "24822091626159277245378582582735729018185693159326386351585418929655565459204694328008143828971913627544372171600250449052084094481663159167721683112007",
"a": "21675265127646754819977633905777524984569451824297749186707620346430284122044993413316034846431874410327825138597240929435640761610737865060189360624138",
"b": "5646240366071706755458980269928181771477331886614215360136853452255773257071770385813662427073795972796259023562365032773201505099516719443765373532606",
"x": "20964663743973955204616898604035558083234795927248052538144951933483277589305424891892195323577481219406389588960071146616391848648005574154143494986151",
"y": "8300301291766743259635844294810413378629519566488372798438876339457552802685544929672140397314373747043776652553783666831521286407792669064709197536124",
"q": "47637684002148077467812886390695369090288437337977174128863123113759577513544230207295162170729859923235195190938675464139383982084824733785478277"
},
{
"N": "47637684002148077467812886390695369090288437337977174128863123113759577513544230207295162170729859923235195190938675464139383982084824733785478277",
"a": "4874296002697896773535193622756612572514469676744444514568925309327934582971453532392089192543216258203813681592337417112468675085986820297421389",
"b": "638371051625617256216710541735556153370998163538019731805896424193237966273234597849257236726423449335522758301325128384399475502805321312293456",
"x": "40142336589054964408049064356206540660464130544847581055113673488727050972216124199247250190524405699429962124191766603180805286719305694258912256",
"y": "19001542753784509411694224484893503989183895057639298232740689332791533507463211156998647808469558984702331613337772931908046311948085353094170415",
"q": "229267832196125534032264694161721085685478751799163425925879906153282177477437371486239908651331264964983480574177857337406423339964653273"
},
{
"N": "229267832196125534032264694161721085685478751799163425925879906153282177477437371486239908651331264964983480574177857337406423339964653273",
"a": "18764852989344592830992186899661248722600069761574010243880209296232154719061459460633416662905829810091213554194366138155752922133594196",
"b": "131647815014206724014016048509235116351359418961513916186096629769046846556159825817444167396767308135670785834258541274967677913237473627",
"x": "92730136565745047087564762207609968792455101373849869680293593421240549913313825302456499475841801235249139035081090874921763162706123924",
"y": "33051694664771256384781184439951006082179179806338818779413650987413491952089665676451658542603870255114926486172493645094202955547857496",
"q": "4078482801368440851607512259610080863939210015283798091683208918655183340304103606348388727734960823739154650882027984264771490960153"
},
{
"N": "4078482801368440851607512259610080863939210015283798091683208918655183340304103606348388727734960823739154650882027984264771490960153",
"a": "3831919794652748239334363692016134925169440154460873055383542338822234839486848945046586758047143418229930947996124850537733730225021",
"b": "2960996941986888357708926216660697539695241225205434693788572618264497445992673723288396623785682045072030072653372108721359163295372",
"x": "2400503360188851316305322829038415838604004989529026399612733670101196069177023825268793021670301120094649941847601997138702228106105",
"y": "1759101629306014999556903949648490253484769277657270366834457725368786888080798904343520788096999063631564219803045166455324915371438",
"q": "2429114235478523437526808969392543695020375232450147761574275710930740236897207501718268411905899875090712409044638486745327176867"
},
{
"N": "2429114235478523437526808969392543695020375232450147761574275710930740236897207501718268411905899875090712409044638486745327176867",
"a": "109093610776737497454497755132528547539013195556313389460200432960387456767616036644291881963845134962160945819611621341300882114",
"b": "62101037723888337040689766615861181483964309596833134903138894519366462212793994299818350654809507403396160510394926573153322614",
"x": "345180989896605101719064882119691327047300070621382620527109552800167044546423558302204388766389217085507015264948397925622566704",
"y": "2301490911766848773215683525866063353578130941121544084331706926890435419487112595638453559995376568995087235097384410398896777783",
"q": "9451806363729663181038167196079936556499514523152325920522473583704452495303725176040712426546750444535854249061788537609017651"
},
{
"N": "9451806363729663181038167196079936556499514523152325920522473583704452495303725176040712426546750444535854249061788537609017651",
"a": "7185412032802133461424961393963283361765564692571268333646932903721557477694920403870748532009642653531347447438990346219624056",
"b": "1816018645266180327027602022332845865533662236364880268090739609556191004654689478410449214074531512554177468439640973134188112",
"x": "7266950538125400105098585498985697659287987934453663605581440042313535671742276389871879136632753432591669478437039102707341802",
"y": "3349778144882201356928256510644049547715310336004949499168364425886200421623448305594284560061343381352369747248297644837565416",
"q": "6844175498718076162953053726343183603547801971869895670182819390970301004611650587461920251777963547055632403250708807025499"
},
{
"N": "6844175498718076162953053726343183603547801971869895670182819390970301004611650587461920251777963547055632403250708807025499",
"a": "2463062262921988940628413920655009216081243167194150044963135727603143824905470680603490847933294745760833688041172336139930",
"b": "2370830715679642896531239547008712620918071767624626555135615436821989452845877118187004574339074776658254734112984941690901",
"x": "5481065718423611255681598643395898754837914473289498195359340996185870939749574109016725077322832261846748643391611665402201",
"y": "1127864192523469054177857972339368325992238923933245019458390099443449268172331782692647415354843677266480602342193515837606",
"q": "16141923346033198497530787090432036800820287669504470920242498254715777023802480516294682682971877349223188315929525421063"
},
{
"N": "16141923346033198497530787090432036800820287669504470920242498254715777023802480516294682682971877349223188315929525421063",
"a": "8605109586936546327337276847417815053863280165839043266474215649425708600816697785004297653866658862117723128566765365737",
"b": "511817492213752103604027735853605391728017090832736952649891478975638910177693209409363393081099989199451682605202926289",
"x": "6787871600604567702179630652481765214244649086552964843131701346719135422272291543826107841668959054276933434427451221580",
"y": "15085544432867661940654973105921817623063053783721057524624848893683338386653141973939660182153584646682316566587741956362",
"q": "2017740418254149812191348386304004600102535958688058865030313181406503791589519206691491073636226650579440374988414334573"
},
{
"N": "2017740418254149812191348386304004600102535958688058865030313181406503791589519206691491073636226650579440374988414334573",
"a": "49980400323922057732890718093644549599349217783698132796245712148731423499394072143345429257331331130075266194086276681",
"b": "830008425881754265381359151758209258024801178799970599832360894964424405600213069884320692146604206803289988909613337203",
"x": "1556053227043113507698283230086698971295912168880807663464955156192171913654672985057831631414878389914661729417782167213",
"y": "1525181046074303509452094996002509909046988650565398457342897642754960914046872939928635169118388186909758358072842006643",
"q": "31855706003380956933870356588317091886683548447869574755767454775367471824855285971172841599937972335228937642038057"
},
{
"N": "31855706003380956933870356588317091886683548447869574755767454775367471824855285971172841599937972335228937642038057",
"a": "1538293759655757114160266163945526697448152671930309218349767952195489460097655407301412255446150341997470042077334",
"b": "22350149318954287624347740761030225389846715532388536383972699195054919294729162094890556952760753545064099122148292",
"x": "25979787476935697527135687965957991371569473832709126113497848644887077866487174987446174843766347866141435340968980",
"y": "22021962468883765370774627833080113464757485050661603178999588293588285119871742524293154751671709941211433926957698",
"q": "1502627641668913062918413046618730749371865492824036545082876406140470484727908425840360026518168936418276167597"
},
{
"N": "1502627641668913062918413046618730749371865492824036545082876406140470484727908425840360026518168936418276167597",
"a": "759139706112598435020426628628743347510823832004345354285902489344570445690718550797969678400074432488362394599",
"b": "0",
"x": "1355684553740977120570920652220720633767947044419461712290136936402512445705728135659986399152041466855767340517",
"y": "445579209864127019983491791193734593211476150617496061651469762521132340109550680132762680582122611318725657063",
"q": "32734210024477076212152404127709492462466265231367234507248309455566127911489988791568523997690272000913"
},
{
"N": "32734210024477076212152404127709492462466265231367234507248309455566127911489988791568523997690272000913",
"a": "21346588105372936644409373795830396218740250015250688661846449922674869369275661774000374165757240763006",
"b": "25028227284290357190733993032926946557099212617608271358690843731742983674918255766766633404732803135740",
"x": "12319643406222602815485746746845682627311035759619052207821305277343918644907389825088148116208420170763",
"y": "1803451533923237498424731107376602422228650951419595492568657721718155048184291920566444565953463206599",
"q": "94063821909416885667104609562383599030075474802779395053170503218562438912621704369634618139838900551"
},
{
"N": "94063821909416885667104609562383599030075474802779395053170503218562438912621704369634618139838900551",
"a": "0",
"b": "2975270866967759840092349608025142639571489369223017075451508665332479034309569947237727345843503700",
"x": "52349733276126990244381425563987630827947625277834117085312065694694013660691473979581639913023663328",
"y": "70445742938433831625341022990855026059110151050961322157285447468543090184938924981508576639143878338",
"q": "200991072456018986468172242654665809893323664108503375738587715942887980120819551596001980341883631"
},
{
"N": "200991072456018986468172242654665809893323664108503375738587715942887980120819551596001980341883631",
"a": "0",
"b": "22138330138514394418580052348596465841079022618705149606584647279108349492494668227588248625304977",
"x": "185936545627183629336449422135353471376814338082493621291087318254049112192216419222443378450549953",
"y": "133018695078242679430586562870136204148781911325590813697113390538732553299798817045209838670876500",
"q": "159390223993670885383165933905365432112072691600696249555732432988484190808736621276120501167263"
},
{
"N": "159390223993670885383165933905365432112072691600696249555732432988484190808736621276120501167263",
"a": "107771756200219874303724781557138274668063798282983390460255590490595540015661341378435525701809",
"b": "123797083481628079011291496171274540878543267094931897955589207370368619082040000274516942157998",
"x": "152944338309790493866298422429125667933763742530120449183534356257053470735582223623926828432172",
"y": "100460623848722301126418163229835309335779115614324987664841478832826790523196010810109032670931",
"q": "2109487955157155879513871944695546124003739923338006483116378163838914485994887601"
},
{
"N": "2109487955157155879513871944695546124003739923338006483116378163838914485994887601",
"a": "0",
"b": "311003590240908993350812167882963111028722248548995291803255937841785261037917977",
"x": "744523156471138714100135659309205416628310462700249448435440154384520716448625081",
"y": "1508323380330305397963274656011254140412816269885833384422461292648705572280274006",
"q": "25320364464165179193704554271924564620981595061018608095910930361127429"
},
{
"N": "25320364464165179193704554271924564620981595061018608095910930361127429",
"a": "0",
"b": "7892153847742076337906106342526919281531833296916992444014845509719080",
"x": "2194422351347152660554579902730724964770512796516585661830260659965522",
"y": "24910216467295794464376462672961639992328893654766781112012954550452833",
"q": "1732695272430610248346450673065627941769422024933392565619"
},
{
"N": "1732695272430610248346450673065627941769422024933392565619",
"a": "0",
"b": "379187423752159327311787679605097356247067242858114188460",
"x": "1016737707925300030442611912747492287626745341794046039393",
"y": "795415047858053669453818115991984729499364021229897855587",
"q": "32670913906412557468969530822063207205551511"
},
{
"N": "32670913906412557468969530822063207205551511",
"a": "0",
"b": "27142788747788343704495019834591257660469239",
"x": "24225261976907455063673912617158395165563691",
"y": "6762196753789511038551733174128072670566706",
"q": "52564424373731467115370577"
},
{
"N": "52564424373731467115370577",
"a": "0",
"b": "44964854408620137630648122",
"x": "21740414723621436419806556",
"y": "46478655086281225771235697",
"q": "6050233008024848065453"
},
{
"N": "6050233008024848065453",
"a": "0",
"b": "220561196959156357000",
"x": "3885964293387130304826",
"y": "2024065811502530262914",
"q": "31537118976637"
},
{
"N": "31537118976637",
"a": "0",
"b": "13023095135055",
"x": "20542708143941",
"y": "19018973881229",
"q": "94706082253"
},
{
"N": "94706082253",
"a": "0",
"b": "53537153356",
"x": "50080421916",
"y": "27672051188",
"q": "10604197"
}
]