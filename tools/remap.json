{"N29":"C33","N34":"C54","N35":"C54","N37":"C38","N60":"C38","N40":"C57","N62":"C57","N68":"C57","N44":"C60","N54":"C60","N55":"C62","N64":"C62","N65":"C63","N66":"C63","N67":"C63","N69":"C63","N41":"C32","N42":"C32","N43":"C32","N61":"C32","N47":"C30/C31","U01":"C39","U02":"C39","U03":"C39","U04":"C39","U06":"C39","U16":"C39","U05":"C33/C40","U08":"C40","U09":"C40","U13":"C41","U14":"C41","U15":"C41","U17":"C41","U18":"C41"}
